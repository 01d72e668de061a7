import Verif.Model.Einsum
import Verif.Lemmas.Nd
import Verif.Lemmas.View
import Verif.Lemmas.Search
import Verif.Lemmas.Cumulative
import Mathlib.Data.List.Dedup
import Mathlib.Algebra.BigOperators.Group.List.Basic
/-!
# Lemmas: Einstein sums
-/

namespace Rumpy
open Spec

/-! ### Values of letters -/

theorem assign_map {L : List Char} (g : Char → Nat) {c : Char} (hc : c ∈ L) : assign L (L.map g) c = g c := by
  unfold assign
  have h := List.idxOf_lt_length_of_mem hc
  rw [List.getD_eq_getElem?_getD, List.getElem?_map, List.getElem?_eq_getElem h]
  simp [List.getElem_idxOf h]

theorem map_assign : ∀ {L : List Char} {x : List Nat}, L.Nodup → x.length = L.length → L.map (assign L x) = x := by
  intro L x hL hx
  apply List.ext_getElem
  · simp [hx]
  · intro i h1 h2
    simp only [List.length_map] at h1
    simp only [List.getElem_map, assign, List.Nodup.idxOf_getElem hL]
    rw [List.getD_eq_getElem?_getD, List.getElem?_eq_getElem h2]
    rfl

theorem inShape_map (L : List Char) (dim g : Char → Nat) : InShape (L.map dim) (L.map g) ↔ ∀ c ∈ L, g c < dim c := by
  induction L with
  | nil => simp [InShape]
  | cons c L ih => simp [InShape, ih]

theorem inShape_length : ∀ {s x : List Nat}, InShape s x → x.length = s.length := by
  intro s x h
  exact (inShape_iff_getD.1 h).1

theorem assign_append_left {L M : List Char} {x y : List Nat} (hx : x.length = L.length) {c : Char} (hc : c ∈ L) :
    assign (L ++ M) (x ++ y) c = assign L x c := by
  unfold assign
  have h := List.idxOf_lt_length_of_mem hc
  rw [List.idxOf_append_of_mem hc]
  simp [List.getElem?_append_left (by omega : L.idxOf c < x.length)]

theorem assign_append_right {L M : List Char} {x y : List Nat} (hx : x.length = L.length) {c : Char} (hc : c ∉ L) :
    assign (L ++ M) (x ++ y) c = assign M y c := by
  unfold assign
  rw [List.idxOf_append_of_notMem hc]
  simp [List.getElem?_append_right (by omega : x.length ≤ L.length + M.idxOf c), hx]

theorem assign_lt {L : List Char} {dim : Char → Nat} {x : List Nat} (hL : L.Nodup) (hx : InShape (L.map dim) x) {c : Char}
    (hc : c ∈ L) : assign L x c < dim c := by
  have hl : x.length = L.length := by simpa using inShape_length hx
  rw [← map_assign hL hl] at hx
  exact (inShape_map L dim _).1 hx c hc

/-- The Einstein sum as a sum over the values of the letters that are not in the output. -/
theorem einsum_split [CommSemiring R] {inputs : List (List Char)} {output contr : List Char} (dim : Char → Nat)
    (ops : List (Nd R)) (ho : output.Nodup) (hc : contr.Nodup)
    (hm : ∀ c, c ∈ contr ↔ c ∈ inputs.flatten ∧ c ∉ output) {idx : List Nat} (hi : InShape (output.map dim) idx) :
    (Spec.einsum inputs output dim ops).get idx =
      ((indices (contr.map dim)).map fun y => einTerm inputs ops (assign (output ++ contr) (idx ++ y))).sum := by
  have hl : idx.length = output.length := by simpa using inShape_length hi
  let L := einLetters inputs output
  have hL : L.Nodup := List.nodup_dedup _
  have hmem : ∀ c, c ∈ L ↔ c ∈ output ∨ c ∈ contr := by
    intro c
    simp only [L, einLetters, List.mem_dedup, List.mem_append, hm]
    by_cases h : c ∈ output <;> simp [h]
  let f : List Nat → List Nat := fun y => L.map (assign (output ++ contr) (idx ++ y))
  have hf : ∀ y, InShape (contr.map dim) y → InShape (L.map dim) (f y) := by
    intro y hy
    rw [inShape_map]
    intro c hcL
    by_cases h : c ∈ output
    · rw [assign_append_left hl h]; exact assign_lt ho hi h
    · rw [assign_append_right hl h]; exact assign_lt hc hy (((hmem c).1 hcL).resolve_left h)
  have hperm : ((indices (L.map dim)).filter fun x => output.map (assign L x) = idx).Perm ((indices (contr.map dim)).map f) := by
    rw [List.perm_ext_iff_of_nodup ((indices_nodup _).filter _)]
    · intro x
      simp only [List.mem_filter, mem_indices, decide_eq_true_eq, List.mem_map]
      constructor
      · rintro ⟨hx, he⟩
        have hxl : x.length = L.length := by simpa using inShape_length hx
        refine ⟨contr.map (assign L x), ?_, ?_⟩
        · rw [inShape_map]
          intro c hcc
          exact assign_lt hL hx ((hmem c).2 (Or.inr hcc))
        · conv_rhs => rw [← map_assign hL hxl]
          apply List.map_congr_left
          intro c hcL
          by_cases h : c ∈ output
          · rw [assign_append_left hl h, ← he, assign_map _ h]
          · rw [assign_append_right hl h, assign_map _ (((hmem c).1 hcL).resolve_left h)]
      · rintro ⟨y, hy, rfl⟩
        refine ⟨hf y hy, ?_⟩
        conv_rhs => rw [← map_assign ho hl]
        apply List.map_congr_left
        intro c hco
        rw [assign_map _ ((hmem c).2 (Or.inl hco)), assign_append_left hl hco]
    · apply List.Nodup.map_on _ (indices_nodup _)
      intro y hy y' hy' he
      rw [mem_indices] at hy hy'
      have h1 : y.length = contr.length := by simpa using inShape_length hy
      have h2 : y'.length = contr.length := by simpa using inShape_length hy'
      rw [← map_assign hc h1, ← map_assign hc h2]
      apply List.map_congr_left
      intro c hcc
      have hno : c ∉ output := ((hm c).1 hcc).2
      have := (List.map_inj_left.1 he) c ((hmem c).2 (Or.inr hcc))
      rwa [assign_append_right hl hno, assign_append_right hl hno] at this
  show ((((indices (L.map dim)).filter fun x => output.map (assign L x) = idx)).map fun x => einTerm inputs ops (assign L x)).sum = _
  rw [(hperm.map _).sum_eq, List.map_map]
  congr 1
  apply List.map_congr_left
  intro y _
  simp only [Function.comp, f, einTerm]
  congr 1
  have key : ∀ (ss : List (List Char)) (os : List (Nd R)), (∀ s ∈ ss, ∀ c ∈ s, c ∈ L) →
      List.zipWith (fun s (a : Nd R) => a.get (s.map (assign L (L.map (assign (output ++ contr) (idx ++ y)))))) ss os =
      List.zipWith (fun s (a : Nd R) => a.get (s.map (assign (output ++ contr) (idx ++ y)))) ss os := by
    intro ss
    induction ss with
    | nil => intro os _; simp
    | cons s ss ih =>
      intro os hs
      cases os with
      | nil => simp
      | cons o os =>
        simp only [List.zipWith_cons_cons]
        rw [ih os fun t ht => hs t (List.mem_cons_of_mem _ ht)]
        congr 2
        apply List.map_congr_left
        intro c hcs
        exact assign_map _ (hs s List.mem_cons_self c hcs)
  apply key
  intro s hs c hcs
  simp only [L, einLetters, List.mem_dedup, List.mem_append, List.mem_flatten]
  exact Or.inl ⟨s, hs, hcs⟩

/-! ### Decoding positions -/

theorem decodeRev_spec : ∀ {s : List Nat} (r : Nat), 0 < size s →
    ∃ x, decodeRev s r = some (x, r / size s) ∧ InShape s x ∧ rank s x = r % size s
  | [], r, _ => ⟨[], by simp [decodeRev, size], trivial, by simp [rank, size, Nat.mod_one]⟩
  | n :: s, r, h => by
    have hs : 0 < size s := Nat.pos_of_mul_pos_left h
    have hn : 0 < n := Nat.pos_of_mul_pos_right h
    obtain ⟨x, he, hx, hr⟩ := decodeRev_spec (s := s) r hs
    refine ⟨(r / size s) % n :: x, ?_, ⟨Nat.mod_lt _ hn, hx⟩, ?_⟩
    · simp only [decodeRev, he, Option.bind_some, if_neg (by omega : n ≠ 0), size]
      rw [Nat.div_div_eq_div_mul, Nat.mul_comm]
    · simp only [rank, size, hr]
      rw [Nat.mul_comm n, Nat.mod_mul, Nat.mul_comm, Nat.add_comm]

theorem decodeRev_rank {s x : List Nat} (hx : InShape s x) : decodeRev s (rank s x) = some (x, 0) := by
  have hlt := rank_lt hx
  obtain ⟨y, he, hy, hr⟩ := decodeRev_spec (s := s) (rank s x) (by omega)
  rw [Nat.mod_eq_of_lt hlt] at hr
  rw [he, rank_inj hy hx hr, Nat.div_eq_of_lt hlt]

theorem foldlM_decode [AddMonoid R] {s : List Nat} {step : R → Nat → Option R} {g : List Nat → R}
    (h : ∀ acc x, InShape s x → step acc (rank s x) = some (acc + g x)) :
    (List.range (sizeOf s)).foldlM step 0 = some ((indices s).map g).sum := by
  rw [sizeOf_eq, ← map_rank_indices]
  have key : ∀ (l : List (List Nat)) (acc : R), (∀ x ∈ l, InShape s x) →
      (l.map (rank s)).foldlM step acc = some (acc + (l.map g).sum) := by
    intro l
    induction l with
    | nil => intro acc _; simp
    | cons x l ih =>
      intro acc hl
      simp only [List.map_cons, List.foldlM_cons, h acc x (hl x List.mem_cons_self), List.sum_cons]
      rw [← add_assoc]
      exact ih _ fun y hy => hl y (List.mem_cons_of_mem _ hy)
  rw [key _ _ fun x hx => mem_indices.1 hx, zero_add]

/-! ### Building the index of an operand -/

theorem mem_positions {sub : List Char} {c : Char} {p : Nat} : p ∈ positions sub c ↔ sub[p]? = some c := by
  simp only [positions, List.mem_filter, List.mem_range, decide_eq_true_eq, and_iff_right_iff_imp]
  intro h
  exact (List.getElem?_eq_some_iff.1 h).1

theorem position?_some {sub : List Char} {c : Char} {p : Nat} (h : position? sub c = some p) : sub[p]? = some c := by
  unfold position? at h
  exact mem_positions.1 (List.mem_of_head? h)

theorem position?_none {sub : List Char} {c : Char} (h : c ∉ sub) : position? sub c = none := by
  cases hp : position? sub c with
  | none => rfl
  | some p => exact absurd (List.mem_of_getElem? (position?_some hp)) h

theorem position?_isSome {sub : List Char} {c : Char} (h : c ∈ sub) : ∃ p, position? sub c = some p := by
  obtain ⟨p, hp⟩ := List.mem_iff_getElem?.1 h
  have hm := mem_positions.2 hp
  unfold position?
  cases hl : positions sub c with
  | nil => rw [hl] at hm; simp at hm
  | cons q l => exact ⟨q, rfl⟩

theorem position?_unique {sub : List Char} {c : Char} {q : Nat} (hn : sub.count c = 1) (h : sub[q]? = some c) :
    position? sub c = some q := by
  obtain ⟨p, hp⟩ := position?_isSome (List.mem_of_getElem? h)
  have hp' := position?_some hp
  rw [hp]
  congr 1
  by_contra hne
  have hd : List.Duplicate c sub := by
    rw [List.duplicate_iff_exists_distinct_get]
    obtain ⟨h1, e1⟩ := List.getElem?_eq_some_iff.1 hp'
    obtain ⟨h2, e2⟩ := List.getElem?_eq_some_iff.1 h
    rcases Nat.lt_or_gt_of_ne hne with hlt | hlt
    · exact ⟨⟨p, h1⟩, ⟨q, h2⟩, hlt, by simp [e1], by simp [e2]⟩
    · exact ⟨⟨q, h2⟩, ⟨p, h1⟩, hlt, by simp [e2], by simp [e1]⟩
  have := List.duplicate_iff_two_le_count.1 hd
  omega

theorem mem_zip_assign {out : List Char} {idx : List Nat} (ho : out.Nodup) (hl : idx.length = out.length) {c : Char} {i : Nat} :
    (c, i) ∈ out.zip idx ↔ c ∈ out ∧ i = assign out idx c := by
  conv_lhs => rw [← map_assign ho hl]
  constructor
  · intro h
    rw [List.mem_iff_getElem?] at h
    obtain ⟨k, hk⟩ := h
    rw [List.getElem?_zip_eq_some] at hk
    refine ⟨List.mem_of_getElem? hk.1, ?_⟩
    have := hk.2
    rw [List.getElem?_map, hk.1] at this
    simpa using this.symm
  · rintro ⟨hc, rfl⟩
    obtain ⟨k, hk⟩ := List.mem_iff_getElem?.1 hc
    rw [List.mem_iff_getElem?]
    refine ⟨k, ?_⟩
    rw [List.getElem?_zip_eq_some]
    simp [hk]

theorem lookup_of_mem {l : List (Char × Nat)} {c : Char} {v : Nat} (hk : ∃ i, (c, i) ∈ l) (h : ∀ i, (c, i) ∈ l → i = v) :
    l.lookup c = some v := by
  induction l with
  | nil => obtain ⟨i, hi⟩ := hk; simp at hi
  | cons p l ih =>
    obtain ⟨d, j⟩ := p
    by_cases hd : c = d
    · subst hd
      simp [List.lookup, h j List.mem_cons_self]
    · have hb : (c == d) = false := by simpa using hd
      simp only [List.lookup, hb]
      apply ih
      · obtain ⟨i, hi⟩ := hk
        rcases List.mem_cons.1 hi with he | hi
        · exact absurd (congrArg Prod.fst he) hd
        · exact ⟨i, hi⟩
      · intro i hi
        exact h i (List.mem_cons_of_mem _ hi)

theorem copyIdx_eq {sub out : List Char} {idx : List Nat} (ho : out.Nodup) (hl : idx.length = out.length)
    (hs : ∀ c ∈ sub, c ∈ out) : copyIdx sub out idx = sub.map (assign out idx) := by
  unfold copyIdx
  apply List.map_congr_left
  intro c hc
  rw [lookup_of_mem (v := assign out idx c)]
  · rfl
  · exact ⟨assign out idx c, by rw [List.mem_reverse, mem_zip_assign ho hl]; exact ⟨hs c hc, rfl⟩⟩
  · intro i hi
    rw [List.mem_reverse, mem_zip_assign ho hl] at hi
    exact hi.2

theorem repeatsAgree_map (sub : List Char) (σ : Char → Nat) : repeatsAgree sub (sub.map σ) = true := by
  have hz : ∀ {c i}, (c, i) ∈ sub.zip (sub.map σ) → c ∈ sub ∧ i = σ c := by
    intro c i h
    rw [List.mem_iff_getElem?] at h
    obtain ⟨k, hk⟩ := h
    rw [List.getElem?_zip_eq_some] at hk
    refine ⟨List.mem_of_getElem? hk.1, ?_⟩
    have := hk.2
    rw [List.getElem?_map, hk.1] at this
    simpa using this.symm
  unfold repeatsAgree
  rw [List.all_eq_true]
  rintro ⟨c, i⟩ hci
  rw [beq_iff_eq]
  exact lookup_of_mem ⟨i, hci⟩ fun j hj => by rw [(hz hj).2, (hz hci).2]

theorem setAll_length (v : List Nat) (ws : List (Nat × Nat)) : (setAll v ws).length = v.length := by
  unfold setAll
  induction ws generalizing v with
  | nil => rfl
  | cons w ws ih => simp [ih]

theorem setAll_getElem? {f : Nat → Nat} {ws : List (Nat × Nat)} (h : ∀ w ∈ ws, w.2 = f w.1) (v : List Nat) (q : Nat)
    (hq : q < v.length) (hw : (∃ w ∈ ws, w.1 = q) ∨ v[q]? = some (f q)) : (setAll v ws)[q]? = some (f q) := by
  unfold setAll
  induction ws generalizing v with
  | nil => simpa using hw
  | cons w ws ih =>
    simp only [List.foldl_cons]
    apply ih (fun x hx => h x (List.mem_cons_of_mem _ hx)) _ (by simpa using hq)
    by_cases hwq : w.1 = q
    · right
      subst hwq
      rw [List.getElem?_set_self (by simpa using hq), h w List.mem_cons_self]
    · rw [List.getElem?_set_ne hwq]
      rcases hw with ⟨x, hx, hxq⟩ | hv
      · left
        rcases List.mem_cons.1 hx with rfl | hx
        · exact absurd hxq hwq
        · exact ⟨x, hx, hxq⟩
      · exact Or.inr hv

theorem setAll_eq_map {sub : List Char} {σ : Char → Nat} {ws : List (Nat × Nat)}
    (h1 : ∀ w ∈ ws, ∃ c, sub[w.1]? = some c ∧ w.2 = σ c)
    (h2 : ∀ q c, sub[q]? = some c → ∃ w ∈ ws, w.1 = q) : setAll (List.replicate sub.length 0) ws = sub.map σ := by
  apply List.ext_getElem?
  intro q
  by_cases hq : q < sub.length
  · have hs : sub[q]? = some sub[q] := List.getElem?_eq_getElem hq
    rw [setAll_getElem? (f := fun p => (sub[p]?.map σ).getD 0) _ _ q (by simpa using hq) (Or.inl (h2 q _ hs))]
    · simp [hs]
    · intro w hw
      obtain ⟨c, hc, he⟩ := h1 w hw
      simp [hc, he]
  · rw [List.getElem?_eq_none (by simp [setAll_length]; omega), List.getElem?_eq_none (by simp; omega)]

theorem mem_outWrites {sub out : List Char} {idx : List Nat} (ho : out.Nodup) (hl : idx.length = out.length) {w : Nat × Nat} :
    w ∈ outWrites sub out idx ↔ ∃ c ∈ out, position? sub c = some w.1 ∧ w.2 = assign out idx c := by
  unfold outWrites
  rw [List.mem_filterMap]
  constructor
  · rintro ⟨⟨c, i⟩, hci, he⟩
    rw [mem_zip_assign ho hl] at hci
    rw [Option.map_eq_some_iff] at he
    obtain ⟨p, hp, rfl⟩ := he
    exact ⟨c, hci.1, hp, hci.2⟩
  · rintro ⟨c, hc, hp, he⟩
    refine ⟨(c, w.2), ?_, ?_⟩
    · rw [mem_zip_assign ho hl]; exact ⟨hc, he⟩
    · simp [hp]

theorem singleIdx_eq {sub out contr : List Char} {idx y : List Nat} (ho : out.Nodup) (hl : idx.length = out.length)
    (hc : ∀ c, c ∈ contr ↔ c ∈ sub ∧ c ∉ out) (h1 : ∀ c ∈ out, sub.count c = 1) :
    singleIdx sub out contr idx y = sub.map (assign (out ++ contr) (idx ++ y)) := by
  unfold singleIdx
  apply setAll_eq_map
  · intro w hw
    rcases List.mem_append.1 hw with hw | hw
    · obtain ⟨c, hco, hp, he⟩ := (mem_outWrites ho hl).1 hw
      exact ⟨c, position?_some hp, by rw [he, assign_append_left hl hco]⟩
    · simp only [List.mem_flatMap, List.mem_map] at hw
      obtain ⟨c, hcc, p, hp, rfl⟩ := hw
      exact ⟨c, mem_positions.1 hp, by rw [assign_append_right hl ((hc c).1 hcc).2]⟩
  · intro q c hq
    by_cases hco : c ∈ out
    · refine ⟨(q, assign out idx c), List.mem_append_left _ ((mem_outWrites ho hl).2 ⟨c, hco, ?_, rfl⟩), rfl⟩
      exact position?_unique (h1 c hco) hq
    · refine ⟨(q, assign contr y c), List.mem_append_right _ ?_, rfl⟩
      simp only [List.mem_flatMap, List.mem_map]
      exact ⟨c, (hc c).2 ⟨List.mem_of_getElem? hq, hco⟩, q, mem_positions.2 hq, rfl⟩

/-- The index of one of two operands is right when its summed letters come first among the summed letters. -/
theorem pairIdx_eq {sub out pre post : List Char} {idx y : List Nat} (ho : out.Nodup) (hl : idx.length = out.length)
    (hn : (pre ++ post).Nodup) (hy : y.length = (pre ++ post).length) (hsub : sub.Nodup)
    (hpre : ∀ c ∈ pre, c ∈ sub) (hpost : ∀ c ∈ post, c ∉ sub)
    (hdis : ∀ c ∈ pre, c ∉ out) (hcov : ∀ c ∈ sub, c ∉ out → c ∈ pre) :
    pairIdx sub out (pre ++ post) idx y = sub.map (assign (out ++ (pre ++ post)) (idx ++ y)) := by
  have hfm : (pre ++ post).filterMap (position? sub) = pre.map fun c => (position? sub c).getD 0 := by
    rw [List.filterMap_append, List.filterMap_eq_nil_iff.2 fun c hc => position?_none (hpost c hc), List.append_nil,
      ← List.filterMap_eq_map]
    apply List.filterMap_congr
    intro c hc
    obtain ⟨p, hp⟩ := position?_isSome (hpre c hc)
    simp [hp]
  unfold pairIdx
  rw [hfm]
  have hyk : ∀ k, k < pre.length → ∀ c, pre[k]? = some c → y[k]? = some (assign (pre ++ post) y c) := by
    intro k hk c hc
    conv_lhs => rw [← map_assign hn hy]
    rw [List.getElem?_map, List.getElem?_append_left hk, hc]
    rfl
  apply setAll_eq_map
  · intro w hw
    rcases List.mem_append.1 hw with hw | hw
    · obtain ⟨c, hco, hp, he⟩ := (mem_outWrites ho hl).1 hw
      exact ⟨c, position?_some hp, by rw [he, assign_append_left hl hco]⟩
    · obtain ⟨k, hk⟩ := List.mem_iff_getElem?.1 hw
      rw [List.getElem?_zip_eq_some, List.getElem?_map, Option.map_eq_some_iff] at hk
      obtain ⟨⟨c, hc, he⟩, hyw⟩ := hk
      have hcp := List.mem_of_getElem? hc
      obtain ⟨p, hp⟩ := position?_isSome (hpre c hcp)
      refine ⟨c, ?_, ?_⟩
      · rw [← he, hp]; exact position?_some hp
      · rw [assign_append_right hl (hdis c hcp)]
        rw [hyk k (List.getElem?_eq_some_iff.1 hc).1 c hc] at hyw
        exact (Option.some.inj hyw).symm
  · intro q c hq
    have hcs := List.mem_of_getElem? hq
    have hpos : position? sub c = some q := position?_unique (List.count_eq_one_of_mem hsub hcs) hq
    by_cases hco : c ∈ out
    · exact ⟨(q, assign out idx c), List.mem_append_left _ ((mem_outWrites ho hl).2 ⟨c, hco, hpos, rfl⟩), rfl⟩
    · obtain ⟨k, hk⟩ := List.mem_iff_getElem?.1 (hcov c hcs hco)
      have hkl := (List.getElem?_eq_some_iff.1 hk).1
      refine ⟨(q, assign (pre ++ post) y c), List.mem_append_right _ (List.mem_iff_getElem?.2 ⟨k, ?_⟩), rfl⟩
      rw [List.getElem?_zip_eq_some, List.getElem?_map, hk]
      exact ⟨by simp [hpos], hyk k hkl c hk⟩

/-! ### Visiting the output -/

private theorem mapM_all {f : β → Option γ} {g : β → γ} : ∀ {l : List β}, (∀ x ∈ l, f x = some (g x)) → l.mapM f = some (l.map g)
  | [], _ => rfl
  | x :: l, h => by
    rw [List.mapM_cons, h x (by simp), mapM_all (l := l) (fun y hy => h y (by simp [hy]))]
    rfl

/-- The shape of the allocated result: one element for a result without axes. -/
theorem out_loop {out : List Char} {dim : Char → Nat} {F : Nat → Option R} {nd : Nd R} (hs : nd.shape = out.map dim)
    (h : ∀ idx, InShape (out.map dim) idx → F (rank (out.map dim) idx) = some (nd.get idx)) :
    (List.range (sizeOf (if (out.map dim).isEmpty then [1] else out.map dim))).mapM F = some nd.toList := by
  have h1 : sizeOf (if (out.map dim).isEmpty then [1] else out.map dim) = size (out.map dim) := by
    rw [sizeOf_eq]
    split
    · rename_i he
      rw [List.isEmpty_iff.1 he]; rfl
    · rfl
  rw [h1, ← map_rank_indices, Nd.toList, hs, List.mapM_map]
  exact mapM_all fun idx hi => h idx (mem_indices.1 hi)

theorem out_zip {out : List Char} {dim : Char → Nat} {idx : List Nat} (hi : InShape (out.map dim) idx) :
    ∃ x, unravelC (cIdxStrides (if (out.map dim).isEmpty then [1] else out.map dim)) (rank (out.map dim) idx) = x ∧
      out.zip x = out.zip idx := by
  refine ⟨_, rfl, ?_⟩
  cases out with
  | nil => simp
  | cons c out =>
    simp only [List.map_cons, List.isEmpty_cons, Bool.false_eq_true, if_false]
    have hr := rank_lt hi
    obtain ⟨h1, h2⟩ := unravelC_spec (s := (c :: out).map dim) hr
    have := rank_inj h1 hi h2
    simp only [List.map_cons] at this
    rw [this]

/-! ### Checking the subscript -/

theorem mem_keys {m : List (Char × Nat)} {c : Char} : c ∈ m.map Prod.fst ↔ (m.lookup c).isSome := by
  induction m with
  | nil => simp
  | cons p m ih =>
    obtain ⟨d, v⟩ := p
    by_cases h : c = d
    · subst h; simp [List.lookup]
    · have hb : (c == d) = false := by simpa using h
      simp only [List.map_cons, List.mem_cons, h, false_or, ih, List.lookup, hb]

/-- What the table of letters holds after a step from `m` to `m'` over the letters `cs`. -/
structure Extends (cs : List Char) (m m' : List (Char × Nat)) : Prop where
  nodup : (m.map Prod.fst).Nodup → (m'.map Prod.fst).Nodup
  keys : ∀ c, c ∈ m'.map Prod.fst ↔ c ∈ m.map Prod.fst ∨ c ∈ cs
  old : ∀ c v, m.lookup c = some v → m'.lookup c = some v

theorem bindAxes_some : ∀ {cs : List Char} {ns : List Nat} {m m' : List (Char × Nat)}, cs.length = ns.length →
    bindAxes cs ns m = some m' → Extends cs m m' ∧ ns = cs.map (dimOf m')
  | [], [], m, m', _, h => by
    simp only [bindAxes, Option.some.injEq] at h
    subst h
    exact ⟨⟨id, by simp, fun _ _ h => h⟩, rfl⟩
  | c :: cs, n :: ns, m, m', hl, h => by
    have hl' : cs.length = ns.length := by simpa using hl
    unfold bindAxes at h
    split at h
    · rename_i hk
      split at h
      · rename_i hn
        obtain ⟨e, he⟩ := bindAxes_some hl' h
        refine ⟨⟨e.nodup, ?_, e.old⟩, ?_⟩
        · intro x
          rw [e.keys, List.mem_cons]
          constructor
          · rintro (h | h)
            · exact Or.inl h
            · exact Or.inr (Or.inr h)
          · rintro (h | rfl | h)
            · exact Or.inl h
            · exact Or.inl (mem_keys.2 hk)
            · exact Or.inr h
        · rw [List.map_cons, ← he]
          simp [dimOf, e.old c n hn]
      · simp at h
    · rename_i hk
      obtain ⟨e, he⟩ := bindAxes_some hl' h
      have hnone : m.lookup c = none := Option.not_isSome_iff_eq_none.1 hk
      have hlast : (m ++ [(c, n)]).lookup c = some n := by
        rw [List.lookup_append, hnone]; simp [List.lookup]
      refine ⟨⟨?_, ?_, ?_⟩, ?_⟩
      · intro hnd
        apply e.nodup
        rw [List.map_append, List.nodup_append]
        refine ⟨hnd, by simp, ?_⟩
        intro a ha b hb
        simp only [List.map_cons, List.map_nil, List.mem_singleton] at hb
        subst hb
        rintro rfl
        exact hk (mem_keys.1 ha)
      · intro x
        rw [e.keys, List.map_append, List.mem_append, List.mem_cons]
        simp only [List.map_cons, List.map_nil, List.mem_singleton, or_assoc]
      · intro x v hx
        apply e.old
        rw [List.lookup_append, hx]; rfl
      · rw [List.map_cons, ← he]
        simp [dimOf, e.old c n hlast]
  | [], _ :: _, _, _, hl, _ => by simp at hl
  | _ :: _, [], _, _, hl, _ => by simp at hl

theorem bindAxes_ok {dim : Char → Nat} : ∀ {cs : List Char} {m : List (Char × Nat)},
    (∀ c v, m.lookup c = some v → v = dim c) →
    ∃ m', bindAxes cs (cs.map dim) m = some m' ∧ ∀ c v, m'.lookup c = some v → v = dim c
  | [], m, h => ⟨m, rfl, h⟩
  | c :: cs, m, h => by
    simp only [List.map_cons, bindAxes]
    by_cases hk : (m.lookup c).isSome
    · rw [if_pos hk]
      obtain ⟨v, hv⟩ := Option.isSome_iff_exists.1 hk
      rw [if_pos (by rw [hv, h c v hv])]
      exact bindAxes_ok h
    · rw [if_neg hk]
      apply bindAxes_ok
      intro x v hx
      rw [List.lookup_append] at hx
      cases hmx : m.lookup x with
      | some u => rw [hmx] at hx; simp at hx; subst hx; exact h x u hmx
      | none =>
        rw [hmx] at hx
        by_cases hxc : x = c
        · subst hxc; simp [List.lookup] at hx; exact hx.symm
        · have hb : (x == c) = false := by simpa using hxc
          simp [List.lookup, hb] at hx

theorem bindOperands_some : ∀ {subs : List (List Char)} {shapes : List (List Nat)} {m m' : List (Char × Nat)},
    subs.length = shapes.length → bindOperands subs shapes m = some m' →
    Extends subs.flatten m m' ∧ shapes = subs.map fun s => s.map (dimOf m')
  | [], [], m, m', _, h => by
    simp only [bindOperands, Option.some.injEq] at h
    subst h
    exact ⟨⟨id, by simp, fun _ _ h => h⟩, rfl⟩
  | s :: subs, sh :: shapes, m, m', hl, h => by
    unfold bindOperands at h
    split at h
    · simp at h
    · rename_i hsl
      rw [Option.bind_eq_some_iff] at h
      obtain ⟨m1, h1, h2⟩ := h
      obtain ⟨e1, hs1⟩ := bindAxes_some (by simpa using hsl) h1
      obtain ⟨e2, hs2⟩ := bindOperands_some (by simpa using hl) h2
      refine ⟨⟨fun h => e2.nodup (e1.nodup h), ?_, fun c v h => e2.old c v (e1.old c v h)⟩, ?_⟩
      · intro c
        rw [e2.keys, e1.keys, List.flatten_cons, List.mem_append, or_assoc]
      · rw [List.map_cons, ← hs2, hs1]
        congr 1
        apply List.map_congr_left
        intro c hc
        obtain ⟨v, hv⟩ := Option.isSome_iff_exists.1 (mem_keys.1 ((e1.keys c).2 (Or.inr hc)))
        simp [dimOf, hv, e2.old c v hv]
  | [], _ :: _, _, _, hl, _ => by simp at hl
  | _ :: _, [], _, _, hl, _ => by simp at hl

theorem bindOperands_ok {dim : Char → Nat} : ∀ {subs : List (List Char)} {m : List (Char × Nat)},
    (∀ c v, m.lookup c = some v → v = dim c) →
    ∃ m', bindOperands subs (subs.map fun s => s.map dim) m = some m' ∧ ∀ c v, m'.lookup c = some v → v = dim c
  | [], m, h => ⟨m, rfl, h⟩
  | s :: subs, m, h => by
    obtain ⟨m1, h1, hm1⟩ := bindAxes_ok (cs := s) h
    obtain ⟨m2, h2, hm2⟩ := bindOperands_ok (subs := subs) hm1
    exact ⟨m2, by simp [bindOperands, h1, h2], hm2⟩

/-- What a successful check gives. -/
theorem validate_some {p : EinSub} {shapes : List (List Nat)} {m : List (Char × Nat)} (h : validateSubscript p shapes = some m) :
    EinDims p.inputs shapes (dimOf m) ∧ (∀ c ∈ p.output, c ∈ p.inputs.flatten) ∧ (m.map Prod.fst).Nodup ∧
      ∀ c, c ∈ m.map Prod.fst ↔ c ∈ p.inputs.flatten := by
  unfold validateSubscript at h
  split at h
  · simp at h
  · rename_i hl
    rw [Option.bind_eq_some_iff] at h
    obtain ⟨m1, h1, h2⟩ := h
    split at h2
    · rename_i hall
      simp only [Option.some.injEq] at h2
      subst h2
      obtain ⟨e, hs⟩ := bindOperands_some (by simpa using hl) h1
      have hk : ∀ c, c ∈ m1.map Prod.fst ↔ c ∈ p.inputs.flatten := by intro c; rw [e.keys]; simp
      refine ⟨hs, ?_, e.nodup (by simp), hk⟩
      intro c hc
      exact (hk c).1 (mem_keys.2 (List.all_eq_true.1 hall c hc))
    · simp at h2

/-- The check accepts consistent lengths. -/
theorem validate_ok {p : EinSub} {shapes : List (List Nat)} {dim : Char → Nat} (hd : EinDims p.inputs shapes dim)
    (ho : ∀ c ∈ p.output, c ∈ p.inputs.flatten) :
    ∃ m, validateSubscript p shapes = some m ∧ ∀ c ∈ p.inputs.flatten, dimOf m c = dim c := by
  obtain ⟨m, hm, hv⟩ := bindOperands_ok (dim := dim) (subs := p.inputs) (m := []) (by simp)
  rw [show (p.inputs.map fun s => s.map dim) = shapes from hd.symm] at hm
  have hl : p.inputs.length = shapes.length := by rw [show shapes = _ from hd]; simp
  obtain ⟨e, _⟩ := bindOperands_some hl hm
  have hk : ∀ c, c ∈ m.map Prod.fst ↔ c ∈ p.inputs.flatten := by intro c; rw [e.keys]; simp
  refine ⟨m, ?_, ?_⟩
  · unfold validateSubscript
    rw [if_neg (by simpa using hl), hm, Option.bind_some, if_pos]
    rw [List.all_eq_true]
    intro c hc
    exact mem_keys.1 ((hk c).2 (ho c hc))
  · intro c hc
    obtain ⟨v, hvv⟩ := Option.isSome_iff_exists.1 (mem_keys.1 ((hk c).2 hc))
    simp [dimOf, hvv, hv c v hvv]

theorem mem_contractions {p : EinSub} {m : List (Char × Nat)} (hk : ∀ c, c ∈ m.map Prod.fst ↔ c ∈ p.inputs.flatten) (c : Char) :
    c ∈ contractions p m ↔ c ∈ p.inputs.flatten ∧ c ∉ p.output := by
  unfold contractions
  rw [List.mem_insertionSort, List.mem_filter, hk]
  simp

theorem nodup_contractions {p : EinSub} {m : List (Char × Nat)} (hn : (m.map Prod.fst).Nodup) : (contractions p m).Nodup := by
  unfold contractions
  exact (List.perm_insertionSort _ _).nodup_iff.2 (hn.filter _)

/-! ### The general loops -/

theorem einTerm_one [CommSemiring R] (s : List Char) (a : Nd R) (σ : Char → Nat) : einTerm [s] [a] σ = a.get (s.map σ) := by
  simp [einTerm]

theorem einTerm_two [CommSemiring R] (s t : List Char) (a b : Nd R) (σ : Char → Nat) :
    einTerm [s, t] [a, b] σ = a.get (s.map σ) * b.get (t.map σ) := by
  simp [einTerm]

/-- `einsum_single` when no letter of the output repeats, and either nothing is summed or no letter of the output
repeats in the operand. -/
theorem einsumSingle_eq [CommSemiring R] {sub out : List Char} {a : Held R} {m : List (Char × Nat)}
    (hv : validateSubscript ⟨[sub], out⟩ [a.view.shape] = some m) (ho : out.Nodup)
    (h : (∀ c ∈ sub, c ∈ out) ∨ ∀ c ∈ out, sub.count c = 1) :
    einsumSingle ⟨[sub], out⟩ a m = some (Spec.einsum [sub] out (dimOf m) [a.nd]).toList := by
  obtain ⟨hd, hos, hn, hk⟩ := validate_some hv
  simp only at hos hk
  have hmc := mem_contractions (p := ⟨[sub], out⟩) hk
  have hnc := nodup_contractions (p := ⟨[sub], out⟩) hn
  unfold einsumSingle
  dsimp only
  generalize contractions ⟨[sub], out⟩ m = contr at hmc hnc
  apply out_loop rfl
  intro idx hi
  have hl : idx.length = out.length := by simpa using inShape_length hi
  obtain ⟨x, hx, hz⟩ := out_zip hi
  rw [hx, einsum_split (dimOf m) [a.nd] ho hnc hmc hi]
  have hcopy : copyIdx sub out x = copyIdx sub out idx := by unfold copyIdx; rw [hz]
  have hsing : ∀ y, singleIdx sub out contr x y = singleIdx sub out contr idx y := by
    intro y; unfold singleIdx outWrites; rw [hz]
  have hmc' : ∀ c, c ∈ contr ↔ c ∈ sub ∧ c ∉ out := by simpa using hmc
  simp only [List.headD_cons]
  split
  · rename_i he
    have he' : contr = [] := List.isEmpty_iff.1 he
    have hs : ∀ c ∈ sub, c ∈ out := by
      intro c hc
      by_contra hno
      have := (hmc' c).2 ⟨hc, hno⟩
      rw [he'] at this
      simp at this
    subst he'
    rw [hcopy, copyIdx_eq ho hl hs]
    simp [indices, einTerm_one, Held.nd, View.denote]
  · rename_i he
    have h1 : ∀ c ∈ out, sub.count c = 1 := by
      rcases h with h | h
      · exfalso
        apply he
        rw [List.isEmpty_iff]
        apply List.eq_nil_iff_forall_not_mem.2
        intro c hc
        exact ((hmc' c).1 hc).2 (h c ((hmc' c).1 hc).1)
      · exact h
    apply foldlM_decode
    intro acc y hy
    rw [decodeRev_rank hy, Option.map_some]
    have e := singleIdx_eq (y := y) ho hl hmc' h1
    rw [← hsing] at e
    have hr := repeatsAgree_map sub (assign (out ++ contr) (idx ++ y))
    rw [← e] at hr
    show some (if (!decide sub.Nodup && !repeatsAgree sub (singleIdx sub out contr x y)) = true then acc
      else acc + a.mem (a.view.addr (singleIdx sub out contr x y))) = _
    rw [hr, Bool.not_true, Bool.and_false, if_neg (by simp), einTerm_one, e]
    rfl

/-- The summed letters of an operand come first among all summed letters. -/
def SummedFirst (sub contr : List Char) : Prop :=
  ∃ pre post, contr = pre ++ post ∧ (∀ c ∈ pre, c ∈ sub) ∧ ∀ c ∈ post, c ∉ sub

theorem einsumElementwise_eq [CommSemiring R] {sa sb out : List Char} {a b : Held R} {m : List (Char × Nat)}
    (hv : validateSubscript ⟨[sa, sb], out⟩ [a.view.shape, b.view.shape] = some m) (ho : out.Nodup)
    (na : sa.Nodup) (nb : sb.Nodup) (fa : SummedFirst sa (contractions ⟨[sa, sb], out⟩ m))
    (fb : SummedFirst sb (contractions ⟨[sa, sb], out⟩ m))
    (hpos : ∀ c ∈ contractions ⟨[sa, sb], out⟩ m, 0 < dimOf m c) :
    einsumElementwise ⟨[sa, sb], out⟩ a b m = some (Spec.einsum [sa, sb] out (dimOf m) [a.nd, b.nd]).toList := by
  obtain ⟨hd, hos, hn, hk⟩ := validate_some hv
  simp only at hos hk
  have hmc := mem_contractions (p := ⟨[sa, sb], out⟩) hk
  have hnc := nodup_contractions (p := ⟨[sa, sb], out⟩) hn
  unfold einsumElementwise
  dsimp only
  generalize contractions ⟨[sa, sb], out⟩ m = contr at hmc hnc fa fb hpos
  have hsz : 0 < size (contr.map (dimOf m)) := by
    clear hmc hnc fa fb
    induction contr with
    | nil => simp [size]
    | cons c l ih =>
      simp only [List.map_cons, size]
      exact Nat.mul_pos (hpos c List.mem_cons_self) (ih fun x hx => hpos x (List.mem_cons_of_mem _ hx))
  have h0 : ¬ sizeOf (contr.map (dimOf m)) = 0 := by rw [sizeOf_eq]; omega
  simp only [if_neg h0]
  apply out_loop rfl
  intro idx hi
  have hl : idx.length = out.length := by simpa using inShape_length hi
  obtain ⟨x, hx, hz⟩ := out_zip hi
  rw [hx, einsum_split (dimOf m) [a.nd, b.nd] ho hnc hmc hi]
  have hpair : ∀ s y, pairIdx s out contr x y = pairIdx s out contr idx y := by
    intro s y; unfold pairIdx outWrites; rw [hz]
  have hidx : ∀ s ∈ [sa, sb], s.Nodup → SummedFirst s contr → ∀ y, InShape (contr.map (dimOf m)) y →
      pairIdx s out contr x y = s.map (assign (out ++ contr) (idx ++ y)) := by
    rintro s hs ns ⟨pre, post, rfl, h1, h2⟩ y hy
    rw [hpair]
    apply pairIdx_eq ho hl hnc (by simpa using inShape_length hy) ns h1 h2
    · intro c hc
      exact ((hmc c).1 (List.mem_append_left _ hc)).2
    · intro c hc hno
      have hcc := (hmc c).2 ⟨List.mem_flatten.2 ⟨s, hs, hc⟩, hno⟩
      rcases List.mem_append.1 hcc with h | h
      · exact h
      · exact absurd hc (h2 c h)
  apply foldlM_decode
  intro acc y hy
  rw [decodeRev_rank hy, Option.map_some]
  simp only [List.getD_cons_zero, List.getD_cons_succ]
  rw [hidx sa (by simp) na fa y hy, hidx sb (by simp) nb fb y hy, einTerm_two]
  rfl

end Rumpy
