import Verif.Props.EinsumPair
/-!
# Property C41: Einstein sums of three operands and more
-/

namespace Props
open Spec Rumpy

/-! ### Contracting two operands first -/

theorem einTerm_cons [CommSemiring R] (s : List Char) (a : Nd R) (ss : List (List Char)) (as : List (Nd R)) (σ : Char → Nat) :
    einTerm (s :: ss) (a :: as) σ = a.get (s.map σ) * einTerm ss as σ := by
  simp [einTerm]

theorem einTerm_congr [CommSemiring R] {ss : List (List Char)} (as : List (Nd R)) {σ τ : Char → Nat} (h : ∀ c ∈ ss.flatten, σ c = τ c) :
    einTerm ss as σ = einTerm ss as τ := by
  induction ss generalizing as with
  | nil => simp [einTerm]
  | cons s ss ih =>
    cases as with
    | nil => simp [einTerm]
    | cons a as =>
      rw [einTerm_cons, einTerm_cons, ih as fun c hc => h c (by simp at hc ⊢; exact Or.inr hc)]
      congr 2
      exact List.map_congr_left fun c hc => h c (by simp [hc])

theorem sum_flatMap [AddCommMonoid R] (l : List α) (f : α → List R) : (l.flatMap f).sum = (l.map fun x => (f x).sum).sum := by
  induction l with
  | nil => simp
  | cons a l ih => simp [List.sum_append, ih]

theorem sum_mul_right' [CommSemiring R] (l : List α) (f : α → R) (g : R) : (l.map fun x => f x * g).sum = (l.map f).sum * g := by
  induction l with
  | nil => simp
  | cons a l ih => simp [ih, add_mul]

theorem step_letters (p q r o : Prop) :
    (((p ∨ q) ∧ (r ∨ o) ∨ r) ∧ ¬ o ∨ (p ∨ q) ∧ ¬ ((p ∨ q) ∧ (r ∨ o))) ↔ (p ∨ q ∨ r) ∧ ¬ o := by tauto

/-- The Einstein sum does not change when the first two operands are replaced by their Einstein sum over the letters that no
later operand and not the output has. -/
theorem einsum_step [CommSemiring R] {s0 s1 kept out : List Char} {rest : List (List Char)} (dim : Char → Nat) (a b : Nd R)
    (ops : List (Nd R)) (ho : out.Nodup) (hk : kept.Nodup)
    (hm : ∀ c, c ∈ kept ↔ (c ∈ s0 ∨ c ∈ s1) ∧ (c ∈ rest.flatten ∨ c ∈ out)) :
    (Spec.einsum (s0 :: s1 :: rest) out dim (a :: b :: ops)).Same
      (Spec.einsum (kept :: rest) out dim (Spec.einsum [s0, s1] kept dim [a, b] :: ops)) := by
  refine ⟨rfl, fun idx hi => ?_⟩
  have hi : InShape (out.map dim) idx := hi
  have hil : idx.length = out.length := by simpa using inShape_length hi
  let c1 := (s0 ++ s1).dedup.filter fun c => decide (c ∉ kept)
  let c2 := (kept ++ rest.flatten).dedup.filter fun c => decide (c ∉ out)
  have n1 : c1.Nodup := (List.nodup_dedup _).filter _
  have n2 : c2.Nodup := (List.nodup_dedup _).filter _
  have m1 : ∀ c, c ∈ c1 ↔ (c ∈ s0 ∨ c ∈ s1) ∧ c ∉ kept := by
    intro c; simp [c1, List.mem_filter]
  have m2 : ∀ c, c ∈ c2 ↔ (c ∈ kept ∨ c ∈ rest.flatten) ∧ c ∉ out := by
    intro c; simp [c2, List.mem_filter]
  have d12 : ∀ c ∈ c1, c ∉ out ++ c2 := by
    intro c h h'
    obtain ⟨h1, h2⟩ := (m1 c).1 h
    rcases List.mem_append.1 h' with h' | h'
    · exact h2 ((hm c).2 ⟨h1, Or.inr h'⟩)
    · obtain ⟨h3 | h3, _⟩ := (m2 c).1 h'
      · exact h2 h3
      · exact h2 ((hm c).2 ⟨h1, Or.inl h3⟩)
  have n21 : (c2 ++ c1).Nodup := by
    rw [List.nodup_append]
    exact ⟨n2, n1, fun x hx y hy e => d12 y hy (List.mem_append.2 (Or.inr (e ▸ hx)))⟩
  rw [einsum_split dim _ ho n21 (by
    intro c
    rw [List.mem_append, m2, m1, hm, List.flatten_cons, List.flatten_cons, List.mem_append, List.mem_append]
    exact step_letters _ _ _ _) hi,
    einsum_split dim _ ho n2 (by intro c; rw [m2]; simp) hi, List.map_append, indices_append, List.map_flatMap, sum_flatMap]
  congr 1
  apply List.map_congr_left
  intro y2 hy2
  have hy2 := mem_indices.1 hy2
  have l2 : y2.length = c2.length := by simpa using inShape_length hy2
  have lo : (idx ++ y2).length = (out ++ c2).length := by simp [hil, l2]
  rw [einTerm_cons]
  have hin : InShape (kept.map dim) (kept.map (assign (out ++ c2) (idx ++ y2))) := by
    rw [inShape_map]
    intro c hc
    by_cases h : c ∈ out
    · rw [assign_append_left hil h]; exact assign_lt ho hi h
    · rw [assign_append_right hil h]; exact assign_lt n2 hy2 ((m2 c).2 ⟨Or.inl hc, h⟩)
  rw [einsum_split dim [a, b] hk n1 (by intro c; rw [m1]; simp) hin, ← sum_mul_right', List.map_map]
  congr 1
  apply List.map_congr_left
  intro y1 hy1
  have hy1 := mem_indices.1 hy1
  rw [Function.comp, einTerm_cons, einTerm_cons, einTerm_two, ← mul_assoc, ← List.append_assoc, ← List.append_assoc]
  have key : ∀ c, c ∈ s0 ∨ c ∈ s1 → assign (out ++ c2 ++ c1) (idx ++ y2 ++ y1) c =
      assign (kept ++ c1) (kept.map (assign (out ++ c2) (idx ++ y2)) ++ y1) c := by
    intro c hc
    by_cases h : c ∈ kept
    · have hc2 : c ∈ out ++ c2 := by
        by_cases h' : c ∈ out
        · exact List.mem_append.2 (Or.inl h')
        · exact List.mem_append.2 (Or.inr ((m2 c).2 ⟨Or.inl h, h'⟩))
      rw [assign_append_left lo hc2, assign_append_left (by simp) h, assign_map _ h]
    · rw [assign_append_right lo (d12 c ((m1 c).2 ⟨hc, h⟩)), assign_append_right (by simp) h]
  have hrest : einTerm rest ops (assign (out ++ c2 ++ c1) (idx ++ y2 ++ y1)) = einTerm rest ops (assign (out ++ c2) (idx ++ y2)) := by
    apply einTerm_congr
    intro c hc
    apply assign_append_left lo
    by_cases h' : c ∈ out
    · exact List.mem_append.2 (Or.inl h')
    · exact List.mem_append.2 (Or.inr ((m2 c).2 ⟨Or.inr hc, h'⟩))
  rw [hrest]
  congr 2
  · congr 1
    exact List.map_congr_left fun c hc => key c (Or.inl hc)
  · congr 1
    exact List.map_congr_left fun c hc => key c (Or.inr hc)

theorem einsum_congr_head [CommSemiring R] {s out : List Char} {rest : List (List Char)} (dim : Char → Nat) {a a' : Nd R} (ops : List (Nd R))
    (h : a.Same a') (hs : a.shape = s.map dim) :
    (Spec.einsum (s :: rest) out dim (a :: ops)) = Spec.einsum (s :: rest) out dim (a' :: ops) := by
  unfold Spec.einsum
  dsimp only
  congr 1
  funext idx
  congr 1
  apply List.map_congr_left
  intro x hx
  have hx := mem_indices.1 (List.mem_filter.1 hx).1
  rw [einTerm_cons, einTerm_cons]
  congr 1
  apply h.2
  rw [hs, inShape_map]
  intro c hc
  exact assign_lt (List.nodup_dedup _) hx (by simp [einLetters, hc])

/-! ### The loop over the operands -/

/-- A step the two-operand theorem covers whatever the layout of the operands: no letter repeats in an operand or in the output; either nothing
is summed, or one letter is, which both operands have, each has at most one other letter, and the output is these letters in order. -/
def EinStep (dim : Char → Nat) (l r out : List Char) : Prop :=
  l.Nodup ∧ r.Nodup ∧ out.Nodup ∧
  ((∀ c, c ∈ l ∨ c ∈ r → c ∈ out) ∨
    ∃ C, l.filter (· ∉ out) = C ∧ r.filter (· ∉ out) = C ∧ out = l.filter (· ∈ out) ++ r.filter (· ∈ out) ∧
      (∀ c ∈ C, 0 < dim c) ∧ (l.filter (· ∈ out)).length ≤ 1 ∧ C.length ≤ 1 ∧ (r.filter (· ∈ out)).length ≤ 1)

/-- The letters of the first two operands that occur later, in alphabetical order. -/
def IsKept (l r later kept : List Char) : Prop :=
  kept.Pairwise (· < ·) ∧ ∀ c, c ∈ kept ↔ (c ∈ l ∨ c ∈ r) ∧ c ∈ later

/-- The operands can be contracted from left to right by steps as in `EinStep`, the last of which is not a transposed
outer product. -/
inductive EinPlan (dim : Char → Nat) (out : List Char) : List (List Char) → Prop
  | last (l r : List Char) : EinStep dim l r out → (∀ c ∈ out, c ∈ l ∨ c ∈ r) → ¬ TransposedOuter l r out → EinPlan dim out [l, r]
  | step (l r kept s : List Char) (rest : List (List Char)) : IsKept l r ((s :: rest).flatten ++ out) kept → EinStep dim l r kept →
      EinPlan dim out (kept :: s :: rest) → EinPlan dim out (l :: r :: s :: rest)

theorem keptLetters_is (l r later : List Char) : IsKept l r later ((keptLetters l r later).insertionSort (· ≤ ·)) := by
  have hn : (keptLetters l r later).Nodup := (List.nodup_dedup _).filter _
  have hn' := (List.perm_insertionSort (· ≤ ·) (keptLetters l r later)).nodup_iff.2 hn
  have hs := List.pairwise_insertionSort (· ≤ ·) (keptLetters l r later)
  refine ⟨?_, fun c => by rw [List.mem_insertionSort]; simp [keptLetters, List.mem_filter]⟩
  have := hs.and hn'
  exact this.imp fun {x y} h => by
    by_contra h'
    exact h.2 (Char.le_antisymm h.1 (Char.not_lt.1 h'))

theorem isKept_unique {l r later k k' : List Char} (h : IsKept l r later k) (h' : IsKept l r later k') : k = k' :=
  List.Pairwise.eq_of_mem_iff h.1 h'.1 fun c => (h.2 c).trans (h'.2 c).symm

theorem isKept_nodup {l r later k : List Char} (h : IsKept l r later k) : k.Nodup :=
  h.1.imp fun {x y} h e => by subst e; exact Char.lt_irrefl x h

theorem stepText_text {l r out : List Char} (hl : ∀ c ∈ l, c.isLower) (hr : ∀ c ∈ r, c.isLower) (ho : ∀ c ∈ out, c.isLower) :
    EinText (stepText l r out) [l, r] out := by
  refine ⟨by simp, by simpa using ⟨hl, hr⟩, Or.inl ⟨?_, fun c hc => Or.inl (ho c hc)⟩⟩
  rw [List.filter_eq_self.2]
  · simp [stepText, commaJoin]
  · intro c hc
    have hlow : ∀ c : Char, c.isLower → ¬ IsSpace c := by
      intro c h h'
      simp only [Char.isLower, Bool.and_eq_true, decide_eq_true_eq] at h
      have h1 : 97 ≤ c.toNat := h.1
      have h2 : c.toNat ≤ 122 := h.2
      unfold IsSpace at h'
      omega
    simp only [stepText, List.mem_append, List.mem_cons, List.not_mem_nil, or_false] at hc
    rw [decide_eq_true_eq]
    rcases hc with (((h | rfl) | h) | rfl | rfl) | h
    · exact hlow c (hl c h)
    · decide
    · exact hlow c (hr c h)
    · decide
    · decide
    · exact hlow c (ho c h)

/-- What a step of the loop returns: a fresh array that holds the Einstein sum of its operands. -/
theorem step_ok {R : Type} [CommSemiring R] {d : DType} (hd : d ∈ productDTypes) {put : R → R} (hput : ∀ x, put x = x)
    {l r out : List Char} (hl : ∀ c ∈ l, c.isLower) (hr : ∀ c ∈ r, c.isLower) {dim : Char → Nat} (hst : EinStep dim l r out)
    (hos : ∀ c ∈ out, c ∈ l ∨ c ∈ r) {a b : Held R} (ha : a.view.WF) (hb : b.view.WF)
    (hia : a.view.item = Rumpy.DType.itemsize d) (hib : b.view.item = Rumpy.DType.itemsize d)
    (sa : a.view.shape = l.map dim) (sb : b.view.shape = r.map dim) :
    ∃ h, einsumTwo d put (stepText l r out) a b = .ok h ∧ h.nd.Same (Spec.einsum [l, r] out dim [a.nd, b.nd]) ∧ h.view.WF ∧
      h.view.item = Rumpy.DType.itemsize d ∧
      (¬ TransposedOuter l r out →
        h = Held.of ⟨out.map dim, (Spec.einsum [l, r] out dim [a.nd, b.nd]).toList⟩ (Rumpy.DType.itemsize d) 0) := by
  obtain ⟨n1, n2, n3, h⟩ := hst
  refine C41_pair_partial d hd put hput _ l r out
    (stepText_text hl hr fun c hc => (hos c hc).elim (hl c) (hr c)) a b ha hb hia hib dim (by simp [EinDims, sa, sb]) hos n1 n2 n3 ?_
  rcases h with h | ⟨C, h1, h2, h3, h4, h5, h6, h7⟩
  · exact Or.inl h
  · exact Or.inr ⟨C, h1, h2, h3, h4, Or.inl ⟨h5, h6⟩, Or.inl ⟨h6, h7⟩⟩

/-- An operand with its letters: one axis for each letter, elements of dtype `d`. -/
structure EinOperand (d : DType) (dim : Char → Nat) (s : List Char) (a : Held R) : Prop where
  wf : a.view.WF
  item : a.view.item = Rumpy.DType.itemsize d
  shape : a.view.shape = s.map dim

theorem steps_ok {R : Type} [CommSemiring R] {d : DType} (hd : d ∈ productDTypes) {put : R → R} (hput : ∀ x, put x = x)
    {out : List Char} {dim : Char → Nat} (ho : out.Nodup) :
    ∀ (rest : List (List Char)) (ops : List (Held R)) (l : List Char) (cur : Held R), rest ≠ [] → EinPlan dim out (l :: rest) →
      List.Forall₂ (EinOperand d dim) rest ops → EinOperand d dim l cur → (∀ t ∈ l :: rest, ∀ c ∈ t, c.isLower) →
      einsumSteps (einsumTwo d put) out (rest.zip ops) l cur =
        .ok (out, Held.of ⟨out.map dim, (Spec.einsum (l :: rest) out dim (cur.nd :: ops.map Held.nd)).toList⟩
          (Rumpy.DType.itemsize d) 0) := by
  intro rest
  induction rest with
  | nil => intro _ _ _ h; exact absurd rfl h
  | cons s rest ih =>
    intro ops l cur _ hp hf hcur hlow
    cases hf with
    | @cons _ b _ ops hb hf =>
    have hll : ∀ c ∈ l, c.isLower := hlow l (by simp)
    have hls : ∀ c ∈ s, c.isLower := hlow s (by simp)
    cases hp with
    | last _ _ hst hos hT =>
      cases hf
      obtain ⟨h, e, _, _, _, hh⟩ := step_ok hd hput hll hls hst hos hcur.wf hb.wf hcur.item hb.item hcur.shape hb.shape
      simp only [List.zip_cons_cons, List.zip_nil_right, einsumSteps, List.isEmpty_nil, if_true]
      rw [e]
      simp only [hh hT]
      rfl
    | step _ _ kept t rest hk hst hp' =>
      have hos : ∀ c ∈ kept, c ∈ l ∨ c ∈ s := fun c hc => ((hk.2 c).1 hc).1
      obtain ⟨h, e, h1, h2, h3, _⟩ := step_ok hd hput hll hls hst hos hcur.wf hb.wf hcur.item hb.item hcur.shape hb.shape
      have hlen := hf.length_eq
      have hz : ((t :: rest).zip ops).isEmpty = false := by
        cases ops with
        | nil => simp at hlen
        | cons => rfl
      have hfst : (((t :: rest).zip ops).map Prod.fst) = t :: rest := List.map_fst_zip (by omega)
      rw [List.zip_cons_cons]
      unfold einsumSteps
      rw [hz, hfst]
      have hkeq : (keptLetters l s ((t :: rest).flatten ++ out)).insertionSort (· ≤ ·) = kept := isKept_unique (keptLetters_is _ _ _) hk
      simp only [Bool.false_eq_true, if_false, hkeq, e]
      have hsh : h.view.shape = kept.map dim := h1.1
      rw [ih ops kept h (by simp) hp' hf ⟨h2, h3, hsh⟩ (by
        intro u hu c hc
        rcases List.mem_cons.1 hu with rfl | hu
        · exact (hos c hc).elim (hll c) (hls c)
        · exact hlow u (by simp only [List.mem_cons] at hu ⊢; exact Or.inr (Or.inr hu)) c hc)]
      congr 4
      rw [einsum_congr_head dim (ops.map Held.nd) h1 hsh]
      exact (Nd.toList_congr (einsum_step dim cur.nd b.nd (ops.map Held.nd) ho (isKept_nodup hk)
        (by intro c; rw [hk.2 c, List.mem_append]))).symm

/-- C41: the Einstein sum of three operands or more.  Partial: the steps from left to right are as in `EinPlan`. -/
theorem C41_multi_partial {R : Type} [CommSemiring R] (d : DType) (hd : d ∈ productDTypes) (put : R → R) (hput : ∀ x, put x = x)
    (s : List Char) (l r t : List Char) (inputs : List (List Char)) (out : List Char) (ht : EinText s (l :: r :: t :: inputs) out)
    (ops : List (Held R)) (dim : Char → Nat) (hops : List.Forall₂ (EinOperand d dim) (l :: r :: t :: inputs) ops)
    (hos : ∀ c ∈ out, c ∈ (l :: r :: t :: inputs).flatten) (ho : out.Nodup) (hp : EinPlan dim out (l :: r :: t :: inputs)) :
    ∃ h, einsum d put s ops = .ok h ∧ h.nd.Same (Spec.einsum (l :: r :: t :: inputs) out dim (ops.map Held.nd)) := by
  have hip := itemsize_pos (productDTypes_sum hd)
  have hdim : EinDims (l :: r :: t :: inputs) (ops.map fun a => a.view.shape) dim := by
    unfold EinDims
    clear hp ht hos
    generalize l :: r :: t :: inputs = ss at hops
    induction hops with
    | nil => rfl
    | cons h _ ih => simp [h.shape, ih]
  obtain ⟨m, hm, hmd⟩ := validate_ok (p := ⟨l :: r :: t :: inputs, out⟩) hdim hos
  have hsh : out.map (dimOf m) = out.map dim := List.map_congr_left fun c hc => hmd c (hos c hc)
  cases hops with
  | @cons _ a _ ops ha hops =>
  cases hops with
  | @cons _ b _ ops hb hops =>
  cases hops with
  | @cons _ c _ ops hc hops =>
  have hex : einsum d put s (a :: b :: c :: ops) =
      einsumMulti (einsumTwo d put) (Rumpy.DType.itemsize d) ⟨l :: r :: t :: inputs, out⟩ m (a :: b :: c :: ops) := by
    unfold Rumpy.einsum
    dsimp only
    rw [(C41_parse s _ out).2 ht, Option.bind_some, hm]
    rfl
  rw [hex]
  unfold einsumMulti
  dsimp only
  simp only [List.getD_cons_zero, List.getD_cons_succ, List.drop_succ_cons, List.drop_zero, sizeOf_eq]
  rw [hsh]
  split
  · rename_i h0
    refine ⟨_, rfl, Arr.Is.denote (r := ⟨out.map dim, []⟩) ⟨rfl, ?_⟩ hip 0⟩
    have hl := Nd.length_toList (Spec.einsum (l :: r :: t :: inputs) out dim ((a :: b :: c :: ops).map Held.nd))
    rw [show size (Nd.shape _) = 0 from h0, List.length_eq_zero_iff] at hl
    exact hl.symm
  · cases hp with
    | step _ _ kept _ _ hk hst hp' =>
      have hlow : ∀ u ∈ l :: r :: t :: inputs, ∀ c ∈ u, c.isLower := ht.2.1
      have hll := hlow l (by simp)
      have hlr := hlow r (by simp)
      have hos' : ∀ c ∈ kept, c ∈ l ∨ c ∈ r := fun c hc => ((hk.2 c).1 hc).1
      obtain ⟨h, e, h1, h2, h3, _⟩ := step_ok hd hput hll hlr hst hos' ha.wf hb.wf ha.item hb.item ha.shape hb.shape
      have hkeq : (keptLetters l r ((t :: inputs).flatten ++ out)).insertionSort (· ≤ ·) = kept := isKept_unique (keptLetters_is _ _ _) hk
      rw [hkeq, e]
      have hsh' : h.view.shape = kept.map dim := h1.1
      have hsteps := steps_ok hd hput ho (t :: inputs) (c :: ops) kept h (by simp) hp' (List.Forall₂.cons hc hops) ⟨h2, h3, hsh'⟩ (by
        intro u hu x hx
        rcases List.mem_cons.1 hu with rfl | hu
        · exact (hos' x hx).elim (hll x) (hlr x)
        · exact hlow u (by simp only [List.mem_cons] at hu ⊢; exact Or.inr (Or.inr hu)) x hx)
      dsimp only
      rw [hsteps]
      have hval : (Spec.einsum (kept :: t :: inputs) out dim (h.nd :: (c :: ops).map Held.nd)).toList =
          (Spec.einsum (l :: r :: t :: inputs) out dim ((a :: b :: c :: ops).map Held.nd)).toList := by
        rw [einsum_congr_head dim _ h1 hsh']
        exact (Nd.toList_congr (einsum_step dim a.nd b.nd _ ho (isKept_nodup hk)
          (by intro c; rw [hk.2 c, List.mem_append]))).symm
      rw [hval]
      refine ⟨_, rfl, Arr.Is.denote (r := ⟨out.map dim, _⟩) ⟨rfl, ?_⟩ hip 0⟩
      have hl := Nd.length_toList (Spec.einsum (l :: r :: t :: inputs) out dim ((a :: b :: c :: ops).map Held.nd))
      have hl : _ = size (out.map dim) := hl
      rw [← hl]
      exact rawCopy_of (arr := ⟨out.map dim, _⟩) hip rfl rfl

/-- The elements a call returns. -/
def elementsOf : Outcome (Held α) → Outcome (List α)
  | .ok h => .ok h.nd.toList
  | .error => .error
  | .panic => .panic

deriving instance DecidableEq for Outcome

/-- A vector of 64-bit integers. -/
def vectorExample (xs : List Int) : Held Int := Held.of ⟨[xs.length], xs⟩ 8 0

example : ∃ h, Rumpy.einsum .i64 id "ij,jk,kl->il".toList [squareExample 1 2 3 4, squareExample 5 6 7 8, squareExample 1 0 1 1] = .ok h ∧
    h.nd.Same (Spec.einsum ["ij".toList, "jk".toList, "kl".toList] "il".toList (fun _ => 2)
      ([squareExample 1 2 3 4, squareExample 5 6 7 8, squareExample 1 0 1 1].map Held.nd)) := by
  have hop : ∀ s : List Char, s.length = 2 → ∀ w x y z, EinOperand .i64 (fun _ => 2) s (squareExample w x y z) := by
    intro s hs w x y z
    refine ⟨View.WF.fresh _ _, rfl, ?_⟩
    obtain ⟨c, c', rfl⟩ := List.length_eq_two.1 hs
    rfl
  refine C41_multi_partial .i64 (by decide) id (fun _ => rfl) _ _ _ _ [] _ (by rw [← C41_parse]; decide +kernel) _ _
    (.cons (hop _ rfl _ _ _ _) (.cons (hop _ rfl _ _ _ _) (.cons (hop _ rfl _ _ _ _) .nil))) (by decide) (by decide) ?_
  have hk : "ik".toList = (keptLetters "ij".toList "jk".toList (["kl".toList].flatten ++ "il".toList)).insertionSort (· ≤ ·) := by
    decide +kernel
  refine .step _ _ "ik".toList _ _ (hk ▸ keptLetters_is _ _ _) ?_ (.last _ _ ?_ (by decide) ?_)
  · exact ⟨by decide, by decide, by decide, Or.inr ⟨"j".toList, by decide, by decide, by decide, by decide, by decide, by decide, by decide⟩⟩
  · exact ⟨by decide, by decide, by decide, Or.inr ⟨"k".toList, by decide, by decide, by decide, by decide, by decide, by decide, by decide⟩⟩
  · exact fun h => absurd h.1 (by decide)
example : (Spec.einsum ["ij".toList, "jk".toList, "kl".toList] "il".toList (fun _ => 2)
    ([squareExample 1 2 3 4, squareExample 5 6 7 8, squareExample 1 0 1 1].map Held.nd)).toList = [41, 22, 93, 50] := by decide +kernel

/-! ### What the code gets wrong -/

/-- C41 fails for an output in another order than the code multiplies in: the elements of the product are not transposed. -/
theorem C41_output_order_counterexample :
    elementsOf (einsumTwo .i64 id "ij,jk->ki".toList (squareExample 1 2 3 4) (squareExample 5 6 7 8)) = .ok [19, 22, 43, 50] ∧
    (Spec.einsum ["ij".toList, "jk".toList] "ki".toList (fun _ => 2)
      [(squareExample 1 2 3 4).nd, (squareExample 5 6 7 8).nd]).toList = [19, 43, 22, 50] := by decide +kernel

/-- C41 fails for two summed letters in different orders: the axes of the second operand are not aligned with those of the first. -/
theorem C41_summed_order_counterexample :
    elementsOf (einsumTwo .i64 id "ij,ji->".toList (squareExample 1 2 3 4) (squareExample 5 6 7 8)) = .ok [70] ∧
    (Spec.einsum ["ij".toList, "ji".toList] [] (fun _ => 2)
      [(squareExample 1 2 3 4).nd, (squareExample 5 6 7 8).nd]).toList = [69] := by decide +kernel

/-- C41 fails for a letter that both operands and the output have, beside a summed letter: the call panics. -/
theorem C41_batch_counterexample :
    elementsOf (einsumTwo .i64 id "bi,bi->b".toList (squareExample 1 2 3 4) (squareExample 5 6 7 8)) = .panic ∧
    (Spec.einsum ["bi".toList, "bi".toList] "b".toList (fun _ => 2)
      [(squareExample 1 2 3 4).nd, (squareExample 5 6 7 8).nd]).toList = [17, 53] := by decide +kernel

/-- C41 fails for a letter that is summed in one operand alone: it is summed together with a letter of the other operand. -/
theorem C41_lone_summed_counterexample :
    elementsOf (einsumTwo .i64 id "ij,k->i".toList (squareExample 1 2 3 4) (vectorExample [5, 6])) = .ok [17, 39] ∧
    (Spec.einsum ["ij".toList, "k".toList] "i".toList (fun _ => 2) [(squareExample 1 2 3 4).nd, (vectorExample [5, 6]).nd]).toList =
      [33, 77] := by decide +kernel

/-- C41 fails for a letter that repeats in one of two operands: only its first axis follows the letter. -/
theorem C41_repeated_counterexample :
    elementsOf (einsumTwo .i64 id "ii,i->i".toList (squareExample 1 2 3 4) (vectorExample [5, 6])) = .ok [5, 18] ∧
    (Spec.einsum ["ii".toList, "i".toList] "i".toList (fun _ => 2) [(squareExample 1 2 3 4).nd, (vectorExample [5, 6]).nd]).toList =
      [5, 24] := by decide +kernel

/-- C41 fails for an empty sum of products: the call panics instead of giving zero. -/
theorem C41_empty_sum_counterexample :
    elementsOf (einsumTwo .i64 id "i,i->".toList (vectorExample []) (vectorExample [])) = .panic ∧
    (Spec.einsum ["i".toList, "i".toList] [] (fun _ => 0) [(vectorExample []).nd, (vectorExample []).nd]).toList = [0] := by decide +kernel

/-- C41 fails for a letter that repeats in an operand and is kept while another is summed: only the first element is found. -/
theorem C41_one_repeated_counterexample :
    elementsOf (einsumOne .i64 "iij->i".toList cubeExample) = .ok [3, 0] ∧
    (Spec.einsum ["iij".toList] "i".toList (fun _ => 2) [cubeExample.nd]).toList = [3, 15] := by decide +kernel

/-- C41: a letter that repeats in the output is accepted, and the result does not vanish off the diagonal. -/
theorem C41_repeated_output_counterexample :
    elementsOf (einsumOne .i64 "i->ii".toList (vectorExample [1, 2])) = .ok [1, 2, 1, 2] ∧
    (Spec.einsum ["i".toList] "ii".toList (fun _ => 2) [(vectorExample [1, 2]).nd]).toList = [1, 0, 0, 2] := by decide +kernel

/-- C41 fails for three operands whose last step is a transposed outer product: the elements are copied in storage order. -/
theorem C41_last_step_counterexample :
    elementsOf (Rumpy.einsum .i64 id "i,i,j->ji".toList [vectorExample [1, 2], vectorExample [3, 4], vectorExample [5, 6]]) =
      .ok [15, 18, 40, 48] ∧
    (Spec.einsum ["i".toList, "i".toList, "j".toList] "ji".toList (fun _ => 2)
      ([vectorExample [1, 2], vectorExample [3, 4], vectorExample [5, 6]].map Held.nd)).toList = [15, 40, 18, 48] := by decide +kernel

/-- The matrix `[[1, 2], [3, 4]]` in column-major order. -/
def columnExample : Held Int := ⟨(Held.of ⟨[2, 2], [1, 3, 2, 4]⟩ 8 0).mem, (squareExample 1 3 2 4).view.transpose⟩

/-- C41 fails for one row-major and one column-major operand, summed over two letters: their elements are paired in
storage order. -/
theorem C41_column_major_counterexample :
    columnExample.nd.toList = [1, 2, 3, 4] ∧
    elementsOf (einsumTwo .i64 id "ij,ij->".toList columnExample (squareExample 5 6 7 8)) = .ok [69] ∧
    (Spec.einsum ["ij".toList, "ij".toList] [] (fun _ => 2) [columnExample.nd, (squareExample 5 6 7 8).nd]).toList = [70] := by
  decide +kernel

end Props
