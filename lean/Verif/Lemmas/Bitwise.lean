import Verif.Spec.Bitwise
import Verif.Model.Bitwise
import Verif.Lemmas.Arith
import Verif.Props.IntOps
/-!
# Lemmas: bitwise operations
-/

namespace Rumpy
open Spec

/-! ### Bits -/

theorem bitOf_nat (n i : Nat) : bitOf (n : Int) i = n.testBit i := by
  unfold bitOf
  rw [Nat.testBit_eq_decide_div_mod_eq]
  congr 1
  apply propext
  constructor
  · intro h; exact_mod_cast h
  · intro h; exact_mod_cast h

theorem bitOf_intValue (s : Bool) {w : Nat} (x : BitVec w) (i : Nat) :
    bitOf (intValue s x) i = if i < w then x.getLsbD i else (s && x.msb) := by
  have hn : bitOf (x.toNat : Int) i = if i < w then x.getLsbD i else false := by
    rw [bitOf_nat]
    show x.getLsbD i = _
    split
    · rfl
    · next h => exact BitVec.getLsbD_of_ge x i (by omega)
  unfold intValue
  cases s
  · simpa using hn
  · simp only [if_true, Bool.true_and]
    cases hm : x.msb
    · rw [BitVec.toInt_eq_toNat_of_msb hm]
      exact hn
    · have ht : x.toInt = (x.toNat : Int) - 2 ^ w := by
        rw [BitVec.toInt_eq_msb_cond, hm]; simp
      rw [ht]
      split
      · next h =>
        rw [if_pos h] at hn
        rw [← hn]
        unfold bitOf
        obtain ⟨k, rfl⟩ : ∃ k, w = i + (k + 1) := ⟨w - i - 1, by omega⟩
        have e : (x.toNat : Int) - 2 ^ (i + (k + 1)) = x.toNat + 2 ^ i * (-(2 * 2 ^ k)) := by rw [pow_add, pow_succ]; ring
        rw [e, Int.add_mul_ediv_left _ _ (by positivity)]
        congr 1
        apply propext
        generalize (2 : Int) ^ k = u
        omega
      · next h =>
        unfold bitOf
        obtain ⟨k, rfl⟩ : ∃ k, i = w + k := ⟨i - w, by omega⟩
        have hlt := x.isLt
        have hlt' : (x.toNat : Int) < 2 ^ w := by exact_mod_cast hlt
        have hk : (1 : Int) ≤ 2 ^ k := by exact_mod_cast Nat.one_le_two_pow
        have hw : (0 : Int) < 2 ^ w := by positivity
        have hp : (2 : Int) ^ w ≤ 2 ^ (w + k) := by rw [pow_add]; nlinarith
        have e : ((x.toNat : Int) - 2 ^ w) / 2 ^ (w + k) = -1 := by
          rw [Int.ediv_eq_iff_of_pos (by positivity)]
          constructor <;> omega
        rw [e]; rfl

/-- The combination of two bits that an operation stands for. -/
def bitFun : BitOp → Option (Bool → Bool → Bool)
  | .and => some fun u v => u && v
  | .or => some fun u v => u || v
  | .xor => some fun u v => u ^^ v
  | _ => none

theorem bitKernel_bitwise {op : BitOp} {f : Bool → Bool → Bool} (hf : bitFun op = some f) (s : Bool) {w : Nat} (x y : BitVec w) :
    IsBitwise f (intValue s x) (intValue s y) (intValue s (bitKernel s op x y)) := by
  intro i
  rw [bitOf_intValue, bitOf_intValue, bitOf_intValue]
  cases op <;> cases hf <;> simp only [bitKernel]
  all_goals split
  all_goals simp [*]
  all_goals (cases s <;> simp)

/-! ### Bytes -/

theorem bytesNat_lt : ∀ bs : List (BitVec 8), bytesNat bs < 2 ^ (8 * bs.length)
  | [] => by simp [bytesNat]
  | b :: bs => by
    have h := bytesNat_lt bs
    have hb := b.isLt
    rw [bytesNat, List.length_cons, show 8 * (bs.length + 1) = 8 + 8 * bs.length by ring, pow_add]
    generalize 2 ^ (8 * bs.length) = u at *
    omega

theorem bytesAt_length {buf : List (BitVec 8)} {p : Int} {n : Nat} (h0 : 0 ≤ p) (h1 : p + n ≤ buf.length) : (bytesAt buf p n).length = n := by
  unfold bytesAt
  rw [List.length_take, List.length_drop]
  omega

theorem readLE_bytesAt (buf : List (BitVec 8)) : ∀ (n : Nat) (p : Int), 0 ≤ p → p + n ≤ buf.length →
    readLE (fun q => buf.getD q.toNat 0#8) p n = bytesNat (bytesAt buf p n)
  | 0, p, _, _ => by simp [readLE, bytesAt, bytesNat]
  | n + 1, p, h0, h1 => by
    have hlt : p.toNat < buf.length := by omega
    have e : bytesAt buf p (n + 1) = buf.getD p.toNat 0#8 :: bytesAt buf (p + 1) n := by
      unfold bytesAt
      rw [List.drop_eq_getElem_cons hlt, List.take_succ_cons, List.getD_eq_getElem?_getD, List.getElem?_eq_getElem hlt]
      rw [show (p + 1).toNat = p.toNat + 1 by omega]
      rfl
    rw [readLE, e, bytesNat, readLE_bytesAt buf n (p + 1) (by omega) (by push_cast at h1; omega)]

theorem readBits_some {buf : List (BitVec 8)} {p : Int} {n : Nat} (h0 : 0 ≤ p) (h1 : p + n ≤ buf.length) :
    readBits n buf p = some (BitVec.ofNat (8 * n) (bytesNat (bytesAt buf p n))) := by
  unfold readBits
  rw [if_pos ⟨h0, h1⟩, readLE_bytesAt buf n p h0 h1]

/-- Reading an integer. -/
theorem bytesElem_int {d : DType} (hd : isIntegerKind d = true) {bs : List (BitVec 8)} (hl : bs.length = DType.itemsize d) :
    bytesElem d bs = .int (intValue (DType.isSigned d) (BitVec.ofNat (8 * DType.itemsize d) (bytesNat bs))) := by
  have hb := bytesNat_lt bs
  rw [hl] at hb
  have hs : ∀ n : Nat, 0 < n → bytesNat bs < 2 ^ (8 * n) → intValue true (BitVec.ofNat (8 * n) (bytesNat bs)) =
      if (bytesNat bs : Int) ≤ 2 ^ (8 * n - 1) - 1 then (bytesNat bs : Int) else bytesNat bs - 256 ^ n := by
    intro n hn hlt
    show (BitVec.ofNat (8 * n) (bytesNat bs)).toInt = _
    rw [BitVec.toInt_eq_toNat_cond, BitVec.toNat_ofNat, Nat.mod_eq_of_lt hlt]
    have e : 2 ^ (8 * n) = 2 * 2 ^ (8 * n - 1) := by rw [← pow_succ']; congr 1; omega
    have e2 : (256 : Int) ^ n = ((2 ^ (8 * n) : Nat) : Int) := by push_cast; rw [pow_mul]; norm_num
    rw [e2, e]
    push_cast
    generalize hu : 2 ^ (8 * n - 1) = u
    have hu' : (2 : Int) ^ (8 * n - 1) = u := by exact_mod_cast hu
    rw [hu']
    split <;> split <;> omega
  have hun : ∀ n : Nat, bytesNat bs < 2 ^ (8 * n) → intValue false (BitVec.ofNat (8 * n) (bytesNat bs)) = bytesNat bs := by
    intro n hlt
    show (((BitVec.ofNat (8 * n) (bytesNat bs)).toNat : Nat) : Int) = _
    rw [BitVec.toNat_ofNat, Nat.mod_eq_of_lt hlt]
  cases d <;> first
    | (cases hd; done)
    | (show Elem.int _ = Elem.int (intValue true _)
       rw [hs _ (by decide) hb, hl]
       rfl)
    | (show Elem.int _ = Elem.int (intValue false _)
       rw [hun _ hb, if_pos]
       simp only [DType.itemsize] at hb
       norm_num at hb ⊢
       omega)

theorem bytesElem_bool {bs : List (BitVec 8)} (hl : bs.length = 1) : bytesElem .bool bs = .bool (BitVec.ofNat 8 (bytesNat bs) != 0) := by
  have hb := bytesNat_lt bs
  rw [hl] at hb
  show Elem.bool (bytesNat bs != 0) = _
  congr 1
  rw [Bool.eq_iff_iff]
  simp only [bne_iff_ne, ne_eq]
  rw [not_iff_not]
  constructor
  · intro h; rw [h]; rfl
  · intro h
    have := congrArg BitVec.toNat h
    rw [BitVec.toNat_ofNat, Nat.mod_eq_of_lt hb] at this
    exact this

/-! ### The loops -/

/-- Where the broadcast array takes an element from. -/
def sourceIdx (s out i : List Nat) : List Nat := List.zipWith (fun d i => if d = 1 then 0 else i) s (i.drop (out.length - s.length))

theorem sourceIdx_in {s out i : List Nat} (h : BroadcastsTo s out) (hi : InShape out i) : InShape s (sourceIdx s out i) :=
  inShape_broadcast h hi

theorem broadcast_source (a : RawArr) (out i : List Nat) : (a.nd.broadcast out).get i = a.nd.get (sourceIdx a.view.shape out i) := rfl

/-- The element of the result at an index. -/
def bitAt (op : BitOp) (r : DType) (a b : RawArr) (out i : List Nat) : Option Elem :=
  bitElem op r (readBits (DType.itemsize r) a.buf (a.view.addr (sourceIdx a.view.shape out i)))
    (readBits (DType.itemsize r) b.buf (b.view.addr (sourceIdx b.view.shape out i)))

theorem bitwise_eq (op : BitOp) {a b : RawArr} (ha : a.view.WF) (hb : b.view.WF) {out : List Nat} (ho : IsBroadcast a.view.shape b.view.shape out) :
    bitwise op a b = if size out = 0 ∨ bitAccepts (promote a.dtype b.dtype) = true then
      some (promote a.dtype b.dtype, ⟨out, (indices out).map (bitAt op (promote a.dtype b.dtype) a b out)⟩) else none := by
  obtain ⟨b1, b2⟩ := broadcastsTo_of ho
  obtain ⟨va, ea⟩ := Option.isSome_iff_exists.1 ((Props.C09_broadcast_to_succeeds_iff _ ha out).2 b1)
  obtain ⟨vb, eb⟩ := Option.isSome_iff_exists.1 ((Props.C09_broadcast_to_succeeds_iff _ hb out).2 b2)
  obtain ⟨wa, sa, ga, -⟩ := broadcastTo_addr ha ea
  obtain ⟨wb, sb, gb, -⟩ := broadcastTo_addr hb eb
  unfold bitwise
  rw [broadcastShapes_iff.2 ho]
  simp only [Option.bind_eq_bind, Option.bind_some, ea, eb]
  rw [sizeOf_eq]
  by_cases h0 : size out = 0
  · rw [if_pos h0, if_pos (.inl h0)]
    have : indices out = [] := List.eq_nil_of_length_eq_zero (by rw [length_indices, h0])
    rw [this]; rfl
  · rw [if_neg h0]
    by_cases h1 : bitAccepts (promote a.dtype b.dtype) = true
    · rw [if_pos h1, if_pos (.inr h1)]
      congr 2
      unfold bitLoop
      rw [mapBinary_eq _ _ _ wa wb sa sb, mapBinaryFallback_eq, ite_self]
      congr 1
      apply List.map_congr_left
      intro i hi
      rw [ga i (mem_indices.1 hi), gb i (mem_indices.1 hi)]
      rfl
    · rw [if_neg h1, if_neg (by rintro (h | h) <;> contradiction)]

theorem bitwise_none_of (op : BitOp) {a b : RawArr} (h : ¬ ∃ out, IsBroadcast a.view.shape b.view.shape out) : bitwise op a b = none := by
  unfold bitwise
  cases hs : broadcastShapes a.view.shape b.view.shape with
  | none => rfl
  | some out => exact absurd ⟨out, broadcastShapes_iff.1 hs⟩ h

theorem bitwise_none_iff (op : BitOp) {a b : RawArr} (ha : a.view.WF) (hb : b.view.WF) :
    bitwise op a b = none ↔ (¬ ∃ out, IsBroadcast a.view.shape b.view.shape out) ∨
      (∃ out, IsBroadcast a.view.shape b.view.shape out ∧ size out ≠ 0) ∧ bitAccepts (promote a.dtype b.dtype) = false := by
  by_cases h : ∃ out, IsBroadcast a.view.shape b.view.shape out
  · obtain ⟨out, ho⟩ := h
    rw [bitwise_eq op ha hb ho]
    constructor
    · intro h
      right
      split at h
      · cases h
      · next hn => exact ⟨⟨out, ho, fun hc => hn (.inl hc)⟩, by
          cases hc : bitAccepts (promote a.dtype b.dtype)
          · rfl
          · exact absurd (.inr hc) hn⟩
    · rintro (h | ⟨⟨out', ho', h0⟩, h1⟩)
      · exact absurd ⟨out, ho⟩ h
      · have e : out = out' := Option.some.inj ((broadcastShapes_iff.2 ho).symm.trans (broadcastShapes_iff.2 ho'))
        subst e
        rw [if_neg]
        rintro (h | h)
        · exact h0 h
        · rw [h1] at h; cases h
  · exact ⟨fun _ => .inl h, fun _ => bitwise_none_of op h⟩

/-- Every element of a result is reached from every element of an operand. -/
theorem exists_source {s out j : List Nat} (h : BroadcastsTo s out) (h0 : size out ≠ 0) (hj : InShape s j) :
    ∃ i, InShape out i ∧ sourceIdx s out i = j := by
  obtain ⟨hl, hd⟩ := h
  have hjl := hj.length_eq
  have hpos : ∀ k, k < out.length → 0 < out.getD k 0 := by
    intro k hk
    have := exists_rank (s := out) (r := 0) (Nat.pos_of_ne_zero h0)
    obtain ⟨i, hi, -⟩ := this
    have := (inShape_iff_getD.1 hi).2 k hk
    omega
  refine ⟨List.replicate (out.length - s.length) 0 ++ j, ?_, ?_⟩
  · rw [inShape_iff_getD]
    refine ⟨by simp; omega, fun k hk => ?_⟩
    by_cases hk2 : k < out.length - s.length
    · rw [List.getD_append _ _ _ _ (by simpa using hk2)]
      have := hpos k hk
      simpa [hk2] using this
    · rw [List.getD_append_right _ _ _ _ (by simp; omega), List.length_replicate]
      have hj2 := (inShape_iff_getD.1 hj).2 (k - (out.length - s.length)) (by omega)
      have hd2 := hd (out.length - 1 - k) (by omega)
      unfold dimR at hd2
      rw [if_pos (by omega), if_pos (by omega), show s.length - 1 - (out.length - 1 - k) = k - (out.length - s.length) by omega,
        show out.length - 1 - (out.length - 1 - k) = k by omega] at hd2
      have e1 : s.getD (k - (out.length - s.length)) 1 = s.getD (k - (out.length - s.length)) 0 := by
        simp [List.getD_eq_getElem?_getD, List.getElem?_eq_getElem (show k - (out.length - s.length) < s.length by omega)]
      have e2 : out.getD k 1 = out.getD k 0 := by
        simp [List.getD_eq_getElem?_getD, List.getElem?_eq_getElem hk]
      rw [e1, e2] at hd2
      have := hpos k hk
      omega
  · unfold sourceIdx
    rw [List.drop_left' (by simp)]
    clear hd hpos hl hjl
    induction s generalizing j with
    | nil => cases j <;> simp_all
    | cons n s ih =>
      cases j with
      | nil => exact False.elim hj
      | cons m j =>
        obtain ⟨h1, h2⟩ := hj
        rw [List.zipWith_cons_cons, ih h2]
        congr 1
        split <;> omega

end Rumpy

namespace Rumpy
open Spec

theorem intBytes_succ (n : Nat) (x : Int) : intBytes (n + 1) x = BitVec.ofInt 8 x :: intBytes n (x / 256) := by
  unfold intBytes
  rw [List.range_succ_eq_map, List.map_cons, List.map_map]
  congr 1
  · simp
  · apply List.map_congr_left
    intro i _
    simp only [Function.comp_apply, Nat.succ_eq_add_one]
    rw [Int.ediv_ediv_of_nonneg (by norm_num), show 8 * (i + 1) = 8 + 8 * i by ring, pow_add]
    norm_num

theorem bytesNat_intBytes : ∀ (n : Nat) (x : Int), (bytesNat (intBytes n x) : Int) = x % 2 ^ (8 * n)
  | 0, x => by simp [intBytes, bytesNat, Int.emod_one]
  | n + 1, x => by
    rw [intBytes_succ, bytesNat]
    push_cast
    rw [bytesNat_intBytes n (x / 256)]
    have h1 : ((BitVec.ofInt 8 x).toNat : Int) = x % 256 := by
      rw [BitVec.toNat_ofInt]
      have : (0 : Int) ≤ x % 256 := Int.emod_nonneg _ (by norm_num)
      norm_num
      omega
    rw [h1, show 8 * (n + 1) = 8 + 8 * n by ring, pow_add]
    rw [show ((2 : Int) ^ 8) = 256 by norm_num]
    have hM : (0 : Int) < 2 ^ (8 * n) := by positivity
    generalize (2 : Int) ^ (8 * n) = M at *
    have e1 := Int.mul_ediv_add_emod x 256
    have e2 := Int.mul_ediv_add_emod (x / 256) M
    have l1 := Int.emod_nonneg (x / 256) hM.ne'
    have l2 := Int.emod_lt_of_pos (x / 256) hM
    have l3 := Int.emod_nonneg x (show (256 : Int) ≠ 0 by norm_num)
    have l4 := Int.emod_lt_of_pos x (show (0 : Int) < 256 by norm_num)
    have e3 : x = (x % 256 + 256 * (x / 256 % M)) + 256 * M * (x / 256 / M) := by
      rw [mul_assoc]
      generalize M * (x / 256 / M) = t at *
      omega
    have e5 : x % (256 * M) = (x % 256 + 256 * (x / 256 % M)) % (256 * M) := by
      conv_lhs => rw [e3]
      exact Int.add_mul_emod_self_left _ _ _
    rw [e5]
    exact (Int.emod_eq_of_lt (by omega) (by omega)).symm

theorem intBytes_length (n : Nat) (x : Int) : (intBytes n x).length = n := by simp [intBytes]

theorem bytesElem_intBytes {x : Int} (h0 : -2 ^ 63 ≤ x) (h1 : x ≤ 2 ^ 63 - 1) : bytesElem .i64 (intBytes 8 x) = .int x := by
  have h := bytesNat_intBytes 8 x
  show Elem.int _ = _
  rw [h, intBytes_length]
  congr 1
  norm_num at *
  split <;> omega

end Rumpy
