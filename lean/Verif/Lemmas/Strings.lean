import Verif.Model.Strings
import Verif.Lemmas.Select
import Verif.Lemmas.Elementwise
/-!
# Lemmas: storage of fixed-width strings
-/

namespace Rumpy
open Spec

/-- The units of a cell: cut to the width, filled with 0. -/
def padCell (w : Nat) (c : List Nat) : List Nat := c.take w ++ List.replicate (w - c.length) 0

@[simp] theorem length_padCell (w : Nat) (c : List Nat) : (padCell w c).length = w := by
  simp [padCell]; omega

theorem getD_padCell {w j : Nat} (c : List Nat) (hj : j < w) : (padCell w c).getD j 0 = c.getD j 0 := by
  unfold padCell
  simp only [List.getD_eq_getElem?_getD]
  by_cases h : j < c.length
  · rw [List.getElem?_append_left (by simp; omega), List.getElem?_take_of_lt hj]
  · rw [List.getElem?_append_right (by simp; omega), List.getElem?_eq_none (l := c) (by omega)]
    simp only [List.length_take, List.getElem?_replicate]
    split <;> rfl

theorem padCell_take (w : Nat) (c : List Nat) : padCell w (c.take w) = padCell w c := by
  unfold padCell
  rw [List.take_take, Nat.min_self]
  congr 1
  simp; omega

theorem storeCell_eq (code : α → Nat) (w base : Nat) (s : List α) :
    storeCell code w base s = (padCell w (s.map code)).zipIdx.map fun xj => (base + xj.2, xj.1) := by
  unfold storeCell padCell
  dsimp only
  rw [List.zipIdx_append, List.map_append, ← List.map_take]
  have h1 : (s.take w).zipIdx.map (fun cj => (base + cj.2, code cj.1)) =
      ((s.take w).map code).zipIdx.map fun xj => (base + xj.2, xj.1) := by
    apply List.ext_getElem <;> simp
  have h2 : (List.range' (s.take w).length (w - (s.take w).length)).map (fun i => (base + i, 0)) =
      ((List.replicate (w - (s.map code).length) 0).zipIdx (0 + ((s.take w).map code).length)).map
        fun xj => (base + xj.2, xj.1) := by
    apply List.ext_getElem
    · simp; omega
    · intro i h1 h2
      simp
  rw [h1, h2]

/-- Stores into one block. -/
theorem writes_block (c : List α) : ∀ (pre mid post : List α), c.length ≤ mid.length →
    writes ((c.zipIdx).map fun xj => (pre.length + xj.2, xj.1)) (pre ++ (mid ++ post)) =
      pre ++ ((c ++ mid.drop c.length) ++ post) := by
  intro pre mid post h
  have hz : (c.zipIdx).map (fun xj => (pre.length + xj.2, xj.1)) = (c.zipIdx pre.length).map fun x => (x.2, id x.1) := by
    apply List.ext_getElem <;> simp
  rw [hz]
  have hsplit : pre ++ (mid ++ post) = pre ++ mid.take c.length ++ (mid.drop c.length ++ post) := by
    rw [List.append_assoc, ← List.append_assoc (mid.take _), List.take_append_drop]
  rw [hsplit]
  have key : ∀ (ws : List (Nat × α)) (d e : List α), (∀ x ∈ ws, x.1 < d.length) →
      writes ws (d ++ e) = writes ws d ++ e := by
    intro ws
    induction ws with
    | nil => intros; rfl
    | cons x ws ih =>
      intro d e hx
      rw [writes_cons, writes_cons, List.set_append_left _ _ (hx x (by simp)), ih]
      intro y hy
      simpa using hx y (by simp [hy])
  rw [key]
  · rw [writes_zipIdx_aux id c pre _ (by simp; omega)]
    simp
  · intro x hx
    obtain ⟨⟨v, i⟩, hy, rfl⟩ := List.mem_map.1 hx
    have := List.mem_zipIdx hy
    simp only [List.length_append, List.length_take]
    omega

theorem writes_cells_aux (w : Nat) : ∀ (cells : List (List Nat)) (k : Nat) (pre : List Nat), pre.length = k * w →
    (∀ c ∈ cells, c.length ≤ w) →
    writes ((cells.zipIdx k).flatMap fun ci => ci.1.zipIdx.map fun xj => (ci.2 * w + xj.2, xj.1))
      (pre ++ List.replicate (cells.length * w) 0) = pre ++ cells.flatMap (padCell w)
  | [], k, pre, _, _ => by simp
  | c :: cells, k, pre, hp, hc => by
    simp only [List.zipIdx_cons, List.flatMap_cons, writes_append, List.length_cons]
    have hcw : c.length ≤ w := hc c (by simp)
    have hrep : List.replicate ((cells.length + 1) * w) 0 = List.replicate w 0 ++ List.replicate (cells.length * w) 0 := by
      rw [← List.replicate_add]; congr 1; ring
    rw [hrep, ← hp, writes_block _ _ _ _ (by simpa using hcw)]
    have hpad : c ++ (List.replicate w 0).drop c.length = padCell w c := by
      simp [padCell, List.take_of_length_le hcw]
    rw [hpad, ← List.append_assoc, writes_cells_aux w cells (k + 1) (pre ++ padCell w c) (by simp [hp]; ring)
      (fun d hd => hc d (by simp [hd]))]
    simp

/-- Stores of several cells into a zeroed buffer. -/
theorem writes_cells (w : Nat) (cells : List (List Nat)) (hc : ∀ c ∈ cells, c.length ≤ w) :
    writes (cells.zipIdx.flatMap fun ci => ci.1.zipIdx.map fun xj => (ci.2 * w + xj.2, xj.1))
      (List.replicate (cells.length * w) 0) = cells.flatMap (padCell w) := by
  simpa using writes_cells_aux w cells 0 [] (by simp) hc

theorem zipIdx_flatMap_map (f : β → γ) (g : γ → Nat → List δ) (l : List β) (k : Nat) :
    ((l.map f).zipIdx k).flatMap (fun ci => g ci.1 ci.2) = (l.zipIdx k).flatMap fun ci => g (f ci.1) ci.2 := by
  induction l generalizing k with
  | nil => rfl
  | cons x l ih => simp [ih]

/-- The same for `storeCell`. -/
theorem writes_storeCells (code : β → Nat) (w : Nat) (data : List (List β)) :
    writes (data.zipIdx.flatMap fun si => storeCell code w (si.2 * w) si.1) (List.replicate (data.length * w) 0) =
      data.flatMap fun s => padCell w (s.map code) := by
  have := writes_cells w (data.map fun s => padCell w (s.map code)) (by
    intro c hc
    obtain ⟨s, _, rfl⟩ := List.mem_map.1 hc
    simp)
  have hz := zipIdx_flatMap_map (fun s : List β => padCell w (s.map code))
    (fun c i => c.zipIdx.map fun xj => (i * w + xj.2, xj.1)) data 0
  rw [List.length_map, hz] at this
  simp only [storeCell_eq]
  rw [this, List.flatMap_map]
  congr 1
  funext s
  have hl := length_padCell w (s.map code)
  generalize padCell w (s.map code) = c at hl ⊢
  simp [padCell, hl, List.take_of_length_le]

/-- Unit `j` of block `i`. -/
theorem flat_getD (w : Nat) : ∀ (cells : List (List Nat)) (i j : Nat), j < w → (∀ c ∈ cells, c.length = w) →
    cells.flatten.getD (i * w + j) 0 = (cells.getD i []).getD j 0
  | [], i, j, _, _ => by simp
  | c :: cells, 0, j, hj, hc => by
    have : c.length = w := hc c (by simp)
    simp only [List.flatten_cons, Nat.zero_mul, Nat.zero_add, List.getD_cons_zero]
    simp only [List.getD_eq_getElem?_getD]
    rw [List.getElem?_append_left (by omega)]
  | c :: cells, i + 1, j, hj, hc => by
    have hl : c.length = w := hc c (by simp)
    have := flat_getD w cells i j hj (fun d hd => hc d (by simp [hd]))
    simp only [List.flatten_cons, List.getD_cons_succ]
    rw [← this]
    simp only [List.getD_eq_getElem?_getD]
    rw [List.getElem?_append_right (by rw [hl, Nat.succ_mul]; omega)]
    congr 2
    rw [hl, Nat.succ_mul]; omega

/-- What the cells of a result are. -/
theorem outCell {unit w : Nat} (hu : 0 < unit) {s : List Nat} (f : List Nat → List Nat) {idx : List Nat}
    (hi : InShape s idx) {j : Nat} (hj : j < w) :
    (StrOut.strs ⟨unit, s, w, (indices s).flatMap fun i => padCell w (f i)⟩).cell
      ((View.fresh s (unit * w)).addr idx) j = (f idx).getD j 0 := by
  have ha := cFlag_addr (View.WF.fresh s (unit * w)) rfl hi
  unfold Strs.cell StrOut.strs
  simp only
  rw [ha]
  have hdiv : ((View.fresh s (unit * w)).offset + (rank (View.fresh s (unit * w)).shape idx : Nat) * ((View.fresh s (unit * w)).item : Int)
      + (unit : Int) * j) / (unit : Int) = ((rank s idx * w + j : Nat) : Int) := by
    simp only [View.fresh]
    have : (0 : Int) + (rank s idx : Int) * ((unit * w : Nat) : Int) + (unit : Int) * j = (unit : Int) * ((rank s idx * w + j : Nat) : Int) := by
      push_cast; ring
    rw [this, Int.mul_ediv_cancel_left _ (by omega)]
  rw [hdiv, Int.toNat_natCast]
  have hfl : (indices s).flatMap (fun i => padCell w (f i)) = ((indices s).map fun i => padCell w (f i)).flatten := by
    rw [List.flatMap_def]
  rw [hfl, flat_getD w _ _ _ hj (by
    intro c hc
    obtain ⟨i, _, rfl⟩ := List.mem_map.1 hc
    simp)]
  have hget : ((indices s).map fun i => padCell w (f i)).getD (rank s idx) [] = padCell w (f idx) := by
    simp only [List.getD_eq_getElem?_getD, List.getElem?_map]
    rw [indices_getElem?_rank hi]
    rfl
  rw [hget, getD_padCell _ hj]

theorem charOf_toNat (c : Char) : charOf c.toNat = some c := by
  unfold charOf
  rw [if_pos (by exact c.valid), Char.ofNat_toNat]

theorem toNat_eq_zero (c : Char) : c.toNat = 0 ↔ c = nul := by
  constructor
  · intro h
    have : Char.ofNat c.toNat = Char.ofNat 0 := by rw [h]
    rwa [Char.ofNat_toNat] at this
  · rintro rfl; rfl

theorem zero_notMem_codes {s : List Char} : 0 ∉ s.map Char.toNat ↔ NoNul s := by
  unfold NoNul
  constructor
  · intro h hn
    exact h (List.mem_map.2 ⟨nul, hn, rfl⟩)
  · intro h hn
    obtain ⟨c, hc, h0⟩ := List.mem_map.1 hn
    exact h ((toNat_eq_zero c).1 h0 ▸ hc)

theorem readLoop_codes : ∀ (s : List Char) (k : Nat),
    readLoop (s.map Char.toNat ++ List.replicate k 0) = s.takeWhile (· ≠ nul)
  | [], 0 => rfl
  | [], k + 1 => by simp [List.replicate_succ, readLoop]
  | c :: s, k => by
    simp only [List.map_cons, List.cons_append, readLoop]
    by_cases h : c.toNat = 0
    · rw [if_pos h, List.takeWhile_cons_of_neg]
      simp [(toNat_eq_zero c).1 h]
    · rw [if_neg h, charOf_toNat]
      simp only
      rw [readLoop_codes s k, List.takeWhile_cons_of_pos]
      simp only [ne_eq, decide_eq_true_eq]
      exact fun h' => h ((toNat_eq_zero c).2 h')

theorem range_map_cell {src : Nat → Nat} {w : Nat} {c : List Nat} (h : ∀ j < w, src j = c.getD j 0) :
    (List.range w).map src = padCell w c := by
  apply List.ext_getElem
  · simp
  · intro i h1 h2
    have hi : i < w := by simpa using h1
    have := getD_padCell c hi
    rw [List.getD_eq_getElem?_getD, List.getElem?_eq_getElem h2, Option.getD_some] at this
    rw [List.getElem_map, List.getElem_range, this, h i hi]

theorem readString_of {src : Nat → Nat} {w : Nat} {s : List Char}
    (h : ∀ j < w, src j = (s.map Char.toNat).getD j 0) : readString src w = (s.take w).takeWhile (· ≠ nul) := by
  unfold readString
  rw [range_map_cell h]
  unfold padCell
  rw [← List.map_take]
  exact readLoop_codes _ _

theorem takeWhile_noNul {s : List Char} (h : NoNul s) : s.takeWhile (· ≠ nul) = s := by
  have := List.takeWhile_append_of_pos (p := fun c => decide (c ≠ nul)) (l₁ := s) (l₂ := []) (by
    intro c hc
    simp only [ne_eq, decide_eq_true_eq]
    rintro rfl
    exact h hc)
  simpa using this

theorem CellOf.read {src : Nat → Nat} {w : Nat} {s : List Char} (h : CellOf src w (s.map Char.toNat)) :
    readString src w = s := by
  rw [readString_of h.2.2, List.take_of_length_le (by simpa using h.1)]
  exact takeWhile_noNul (zero_notMem_codes.1 h.2.1)

theorem takeWhile_ne_zero_append {c : List Nat} (h : 0 ∉ c) (k : Nat) :
    (c ++ List.replicate k 0).takeWhile (· ≠ 0) = c := by
  rw [List.takeWhile_append_of_pos]
  · cases k <;> simp [List.replicate_succ]
  · intro x hx
    simp only [ne_eq, decide_eq_true_eq]
    rintro rfl
    exact h hx

theorem CellOf.readBytes {src : Nat → Nat} {w : Nat} {s : List Nat} (h : CellOf src w s) :
    readBytes src w = s := by
  unfold Rumpy.readBytes
  rw [range_map_cell h.2.2]
  unfold padCell
  rw [List.take_of_length_le h.1]
  exact takeWhile_ne_zero_append h.2.1 _

/-- A result whose units are the padded codes of texts holds these texts. -/
theorem out_holds {s : List Nat} {w : Nat} {t : List Nat → List Char}
    (ht : ∀ idx, InShape s idx → (t idx).length ≤ w ∧ NoNul (t idx)) :
    (StrOut.strs ⟨4, s, w, (indices s).flatMap fun i => padCell w ((t i).map Char.toNat)⟩).Holds ⟨s, t⟩ := by
  refine ⟨rfl, rfl, rfl, fun idx hi => ⟨by rw [List.length_map]; exact (ht idx hi).1, zero_notMem_codes.2 (ht idx hi).2, fun j hj => ?_⟩⟩
  exact outCell (by omega) (fun i => (t i).map Char.toNat) hi hj

/-- The same for bytes. -/
theorem out_holdsBytes {s : List Nat} {w : Nat} {t : List Nat → List Nat}
    (ht : ∀ idx, InShape s idx → (t idx).length ≤ w ∧ 0 ∉ t idx) :
    (StrOut.strs ⟨1, s, w, (indices s).flatMap fun i => padCell w (t i)⟩).HoldsBytes ⟨s, t⟩ := by
  refine ⟨rfl, by simp [StrOut.strs, View.fresh], rfl, fun idx hi => ⟨(ht idx hi).1, (ht idx hi).2, fun j hj => ?_⟩⟩
  exact outCell (by omega) t hi hj

theorem fromVec_eq (unit : Nat) (code : β → Nat) (data : List (List β)) (w : Nat) :
    fromVec unit code data w = ⟨unit, [data.length], w,
      (indices [data.length]).flatMap fun i => padCell w ((data.getD (i.getD 0 0) []).map code)⟩ := by
  unfold fromVec
  dsimp only
  have hx : (indices [data.length]).flatMap (fun i => padCell w ((data.getD (i.getD 0 0) []).map code)) =
      data.flatMap fun s => padCell w (s.map code) := by
    rw [List.flatMap_def, List.flatMap_def]
    congr 1
    have hs : indices [data.length] = (List.range data.length).map fun i => [i] := indices_singleton _
    rw [hs]
    apply List.ext_getElem
    · simp
    · intro i h1 h2
      have hi : i < data.length := by simpa using h2
      simp [List.getD_eq_getElem?_getD, hi]
  rw [hx]
  split
  · rename_i h
    have : data = [] := List.length_eq_zero_iff.1 h
    subst this
    simp
  · rw [writes_storeCells]

/-! ### Order -/

theorem compareBytes_append (p s t : List Nat) : compareBytes (p ++ s) (p ++ t) = compareBytes s t := by
  induction p with
  | nil => rfl
  | cons x p ih => simp [compareBytes, ih]

theorem compareBytes_lt_nil {s : List Nat} (h : s ≠ []) : compareBytes [] s = .lt := by
  cases s with
  | nil => exact absurd rfl h
  | cons x s => rfl

theorem compareBytes_gt_nil {s : List Nat} (h : s ≠ []) : compareBytes s [] = .gt := by
  cases s with
  | nil => exact absurd rfl h
  | cons x s => rfl

theorem utf8_ne_nil (c : Char) : utf8 c ≠ [] := by
  unfold utf8
  dsimp only
  split
  · simp
  · split
    · simp
    · split <;> simp

/-- The encodings of two characters differ first at a byte that is in the order of the
characters. -/
theorem utf8_lt {a b : Char} (h : a.toNat < b.toNat) :
    ∃ p x y u v, utf8 a = p ++ x :: u ∧ utf8 b = p ++ y :: v ∧ x < y := by
  unfold utf8
  dsimp only
  have hb : b.toNat < 0x110000 := by
    have := b.valid
    unfold UInt32.isValidChar Nat.isValidChar at this
    have hx : b.toNat = b.val.toNat := rfl
    omega
  generalize a.toNat = n at *
  generalize b.toNat = m at *
  by_cases n1 : n < 0x80
  · rw [if_pos n1]
    by_cases m1 : m < 0x80
    · rw [if_pos m1]; exact ⟨[], n, m, [], [], rfl, rfl, h⟩
    · rw [if_neg m1]
      split
      · exact ⟨[], _, _, _, _, rfl, rfl, by omega⟩
      · split
        · exact ⟨[], _, _, _, _, rfl, rfl, by omega⟩
        · exact ⟨[], _, _, _, _, rfl, rfl, by omega⟩
  · rw [if_neg n1, if_neg (show ¬ m < 0x80 by omega)]
    by_cases n2 : n < 0x800
    · rw [if_pos n2]
      by_cases m2 : m < 0x800
      · rw [if_pos m2]
        rcases Nat.lt_or_ge (n / 64) (m / 64) with hq | hq
        · exact ⟨[], _, _, _, _, rfl, rfl, by omega⟩
        · have : n / 64 = m / 64 := by omega
          refine ⟨[0xC0 + n / 64], 0x80 + n % 64, 0x80 + m % 64, [], [], rfl, by rw [this]; rfl, by omega⟩
      · rw [if_neg m2]
        split
        · exact ⟨[], _, _, _, _, rfl, rfl, by omega⟩
        · exact ⟨[], _, _, _, _, rfl, rfl, by omega⟩
    · rw [if_neg n2, if_neg (show ¬ m < 0x800 by omega)]
      have key : ∀ q r : Nat, q < r → q / 64 < r / 64 ∨ (q / 64 = r / 64 ∧ q % 64 < r % 64) := by omega
      by_cases n3 : n < 0x10000
      · rw [if_pos n3]
        by_cases m3 : m < 0x10000
        · rw [if_pos m3]
          rcases key n m h with hq | ⟨hq, hr⟩
          · rcases key _ _ hq with hq | ⟨hq, hr⟩
            · exact ⟨[], _, _, _, _, rfl, rfl, by omega⟩
            · exact ⟨[0xE0 + n / 64 / 64], _, _, _, _, rfl, by rw [hq]; rfl, by omega⟩
          · exact ⟨[0xE0 + n / 64 / 64, 0x80 + n / 64 % 64], _, _, _, _, rfl, by rw [hq]; rfl, by omega⟩
        · rw [if_neg m3]
          exact ⟨[], _, _, _, _, rfl, rfl, by omega⟩
      · rw [if_neg n3, if_neg (show ¬ m < 0x10000 by omega)]
        rcases key n m h with hq | ⟨hq, hr⟩
        · rcases key _ _ hq with hq | ⟨hq, hr⟩
          · rcases key _ _ hq with hq | ⟨hq, hr⟩
            · exact ⟨[], _, _, _, _, rfl, rfl, by omega⟩
            · exact ⟨[0xF0 + n / 64 / 64 / 64], _, _, _, _, rfl, by rw [hq]; rfl, by omega⟩
          · exact ⟨[0xF0 + n / 64 / 64 / 64, 0x80 + n / 64 / 64 % 64], _, _, _, _, rfl, by rw [hq]; rfl, by omega⟩
        · exact ⟨[0xF0 + n / 64 / 64 / 64, 0x80 + n / 64 / 64 % 64, 0x80 + n / 64 % 64], _, _, _, _, rfl, by rw [hq]; rfl, by omega⟩

theorem dict_trichotomy {lt : α → α → Prop} (htri : ∀ a b, lt a b ∨ a = b ∨ lt b a) :
    ∀ s t : List α, DictLt lt s t ∨ s = t ∨ DictLt lt t s
  | [], [] => Or.inr (Or.inl rfl)
  | [], b :: t => Or.inl ⟨[], Or.inl ⟨b, t, rfl, rfl⟩⟩
  | a :: s, [] => Or.inr (Or.inr ⟨[], Or.inl ⟨a, s, rfl, rfl⟩⟩)
  | a :: s, b :: t => by
    rcases htri a b with h | rfl | h
    · exact Or.inl ⟨[], Or.inr ⟨a, b, s, t, rfl, rfl, h⟩⟩
    · have up : ∀ u v : List α, DictLt lt u v → DictLt lt (a :: u) (a :: v) := by
        rintro u v ⟨p, ⟨b, r, rfl, rfl⟩ | ⟨x, y, q, r, rfl, rfl, hxy⟩⟩
        · exact ⟨a :: u, Or.inl ⟨b, r, rfl, rfl⟩⟩
        · exact ⟨a :: p, Or.inr ⟨x, y, q, r, rfl, rfl, hxy⟩⟩
      rcases dict_trichotomy htri s t with h | rfl | h
      · exact Or.inl (up _ _ h)
      · exact Or.inr (Or.inl rfl)
      · exact Or.inr (Or.inr (up _ _ h))
    · exact Or.inr (Or.inr ⟨[], Or.inr ⟨b, a, t, s, rfl, rfl, h⟩⟩)

theorem compareBytes_self (s : List Nat) : compareBytes s s = .eq := by
  have := compareBytes_append s [] []
  simpa [compareBytes] using this

/-- A comparison that answers along a dictionary order decides it. -/
theorem decides_of {lt : α → α → Prop} {cmp : List α → List α → Ordering}
    (htri : ∀ a b, lt a b ∨ a = b ∨ lt b a) (h1 : ∀ s t, DictLt lt s t → cmp s t = .lt)
    (h2 : ∀ s, cmp s s = .eq) (h3 : ∀ s t, DictLt lt t s → cmp s t = .gt) (s t : List α) :
    (cmp s t = .lt ↔ DictLt lt s t) ∧ (cmp s t = .eq ↔ s = t) ∧ (cmp s t = .gt ↔ DictLt lt t s) := by
  rcases dict_trichotomy htri s t with h | rfl | h
  · have e := h1 s t h
    refine ⟨⟨fun _ => h, fun _ => e⟩, ⟨fun h' => ?_, fun h' => ?_⟩, ⟨fun h' => ?_, fun h' => h3 s t h'⟩⟩
    · rw [e] at h'; cases h'
    · rw [h', h2] at e; cases e
    · rw [e] at h'; cases h'
  · refine ⟨⟨fun h => ?_, h1 s s⟩, ⟨fun _ => rfl, fun _ => h2 s⟩, ⟨fun h => ?_, h3 s s⟩⟩
    · rw [h2] at h; cases h
    · rw [h2] at h; cases h
  · have e := h3 s t h
    refine ⟨⟨fun h' => ?_, fun h' => h1 s t h'⟩, ⟨fun h' => ?_, fun h' => ?_⟩, ⟨fun _ => h, fun _ => e⟩⟩
    · rw [e] at h'; cases h'
    · rw [e] at h'; cases h'
    · rw [h', h2] at e; cases e

theorem compareBytes_spec (s t : List Nat) :
    (compareBytes s t = .lt ↔ DictLt (· < ·) s t) ∧ (compareBytes s t = .eq ↔ s = t) ∧
      (compareBytes s t = .gt ↔ DictLt (· < ·) t s) := by
  apply decides_of (lt := (· < ·)) (cmp := compareBytes) (fun a b => by omega)
  · rintro s t ⟨p, ⟨b, r, rfl, rfl⟩ | ⟨x, y, q, r, rfl, rfl, hxy⟩⟩
    · have := compareBytes_append s [] (b :: r)
      rw [List.append_nil] at this
      rw [this]; rfl
    · rw [compareBytes_append, compareBytes, if_pos hxy]
  · exact compareBytes_self
  · rintro s t ⟨p, ⟨b, r, rfl, rfl⟩ | ⟨x, y, q, r, rfl, rfl, hxy⟩⟩
    · have := compareBytes_append t (b :: r) []
      rw [List.append_nil] at this
      rw [this]; rfl
    · rw [compareBytes_append, compareBytes, if_neg (by omega), if_pos hxy]

theorem compareText_spec (s t : List Char) :
    (compareText s t = .lt ↔ TextLt s t) ∧ (compareText s t = .eq ↔ s = t) ∧ (compareText s t = .gt ↔ TextLt t s) := by
  unfold TextLt
  apply decides_of (lt := fun a b : Char => a.toNat < b.toNat) (cmp := compareText)
  · intro a b
    rcases Nat.lt_trichotomy a.toNat b.toNat with h | h | h
    · exact Or.inl h
    · right; left
      have : Char.ofNat a.toNat = Char.ofNat b.toNat := by rw [h]
      rwa [Char.ofNat_toNat, Char.ofNat_toNat] at this
    · exact Or.inr (Or.inr h)
  · rintro s t ⟨p, ⟨b, r, rfl, rfl⟩ | ⟨x, y, q, r, rfl, rfl, hxy⟩⟩
    · unfold compareText
      have := compareBytes_append (s.flatMap utf8) [] ((b :: r).flatMap utf8)
      rw [List.append_nil, ← List.flatMap_append] at this
      rw [this]
      exact compareBytes_lt_nil (by simp [utf8_ne_nil])
    · obtain ⟨p', a', b', u, v, ha, hb, hlt⟩ := utf8_lt hxy
      unfold compareText
      rw [List.flatMap_append, List.flatMap_append, compareBytes_append, List.flatMap_cons, List.flatMap_cons, ha, hb,
        List.append_assoc, List.append_assoc, compareBytes_append, List.cons_append, List.cons_append, compareBytes, if_pos hlt]
  · intro s; exact compareBytes_self _
  · rintro s t ⟨p, ⟨b, r, rfl, rfl⟩ | ⟨x, y, q, r, rfl, rfl, hxy⟩⟩
    · unfold compareText
      have := compareBytes_append (t.flatMap utf8) ((b :: r).flatMap utf8) []
      rw [List.append_nil, ← List.flatMap_append] at this
      rw [this]
      exact compareBytes_gt_nil (by simp [utf8_ne_nil])
    · obtain ⟨p', a', b', u, v, ha, hb, hlt⟩ := utf8_lt hxy
      unfold compareText
      rw [List.flatMap_append, List.flatMap_append, compareBytes_append, List.flatMap_cons, List.flatMap_cons, ha, hb,
        List.append_assoc, List.append_assoc, compareBytes_append, List.cons_append, List.cons_append, compareBytes,
        if_neg (by omega), if_pos hlt]

theorem strs_view (o : StrOut) : o.strs.view = View.fresh o.shape (o.unit * o.width) := rfl

end Rumpy
