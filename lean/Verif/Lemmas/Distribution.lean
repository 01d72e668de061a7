import Verif.Spec.Distribution
import Verif.Model.Distribution
import Verif.Lemmas.Random
import Mathlib.Tactic.Linarith
import Mathlib.Tactic.FieldSimp
import Mathlib.Tactic.Ring
import Mathlib.Tactic.LinearCombination
import Mathlib.Algebra.BigOperators.Ring.Finset
import Mathlib.Algebra.BigOperators.Intervals
import Mathlib.Algebra.Order.BigOperators.Group.List
/-!
# Lemmas: distributions
-/

namespace Rumpy
open Spec

/-! ### Finite distributions -/

theorem prob_pure [Semiring K] [DecidableEq β] (b c : β) : (pure b : Dist K β).prob c = if b = c then 1 else 0 := by
  show ([(b, (1 : K))].map fun e : β × K => if e.1 = c then e.2 else 0).sum = _
  simp

theorem prob_scale [Semiring K] [DecidableEq β] (l : List (β × K)) (w : K) (c : β) :
    ((l.map fun e : β × K => (e.1, w * e.2)).map fun e : β × K => if e.1 = c then e.2 else 0).sum =
      w * (l.map fun e : β × K => if e.1 = c then e.2 else 0).sum := by
  induction l with
  | nil => simp
  | cons e l ih =>
    simp only [List.map_cons, List.sum_cons]
    rw [ih, mul_add]
    congr 1
    split <;> simp

theorem prob_bind [Semiring K] [DecidableEq β] (d : Dist K γ) (f : γ → Dist K β) (c : β) :
    (d >>= f).prob c = (d.map fun e : γ × K => e.2 * (f e.1).prob c).sum := by
  show ((List.flatMap (fun e : γ × K => (f e.1).map fun e' : β × K => (e'.1, e.2 * e'.2)) d).map
    fun e : β × K => if e.1 = c then e.2 else 0).sum = _
  induction d with
  | nil => rfl
  | cons e d ih =>
    rw [List.flatMap_cons, List.map_append, List.sum_append, ih, List.map_cons, List.sum_cons]
    congr 1
    exact prob_scale (f e.1) e.2 c

theorem prob_cons [Semiring K] (d : Dist K (List Nat)) (x : Nat) (c : List Nat) :
    (d >>= fun row => pure (x :: row) : Dist K (List Nat)).prob c =
      match c with
      | [] => 0
      | y :: cs => if x = y then d.prob cs else 0 := by
  rw [prob_bind]
  simp only [prob_pure]
  cases c with
  | nil =>
    dsimp only
    refine List.sum_eq_zero ?_
    intro z hz
    obtain ⟨e, -, rfl⟩ := List.mem_map.1 hz
    simp
  | cons y cs =>
    dsimp only
    by_cases h : x = y
    · rw [if_pos h]
      unfold Dist.prob
      congr 1
      refine List.map_congr_left fun e _ => ?_
      subst h
      by_cases h2 : e.1 = cs <;> simp [h2]
    · rw [if_neg h]
      refine List.sum_eq_zero ?_
      intro z hz
      obtain ⟨e, -, rfl⟩ := List.mem_map.1 hz
      simp [h]

theorem sum_single {K : Type} [AddCommMonoid K] (f : Nat → K) (n y : Nat) :
    ((List.range n).map fun k => if k = y then f k else 0).sum = if y < n then f y else 0 := by
  induction n with
  | zero => simp
  | succ n ih =>
    rw [List.range_succ, List.map_append, List.sum_append, ih]
    simp only [List.map_cons, List.map_nil, List.sum_singleton]
    by_cases h : n = y
    · subst h
      simp
    · rw [if_neg h, add_zero]
      have : y < n ↔ y < n + 1 := by omega
      simp [this]

theorem binomial_sum [Ring K] (n : Nat) (p : K) (F : Nat × K → K) :
    ((binomialDist n p).map F).sum =
      ((List.range (n + 1)).map (F ∘ fun k : Nat => (k, (n.choose k : K) * p ^ k * (1 - p) ^ (n - k)))).sum := by
  unfold binomialDist
  rw [List.map_map]

/-- The law of a row: the code draws binomial counts one after the other with the conditional probabilities; together that is
the multinomial distribution. -/
theorem multinomialRow_law [Field K] [LinearOrder K] [IsStrictOrderedRing K] (ps : List K) (hne : ps ≠ []) (hp : ∀ p ∈ ps, 0 ≤ p)
    (n : Nat) (q : K) (hq : q = ps.sum) (c : List Nat) :
    q ^ n * (multinomialRow (M := Dist K) binomialDist n q ps).prob c = multinomialWeight n ps c := by
  induction ps generalizing n q c with
  | nil => exact absurd rfl hne
  | cons p ps ih =>
    cases ps with
    | nil =>
      rw [multinomialRow, prob_pure]
      rw [List.sum_singleton] at hq
      subst hq
      unfold multinomialWeight
      match c with
      | [] => simp
      | [y] =>
        simp only [List.cons.injEq, and_true, List.length_cons, List.length_nil, if_true, deals]
        by_cases h : n = y
        · subst h
          simp
        · rw [if_neg h]
          by_cases h2 : y ≤ n
          · have : n - y ≠ 0 := by omega
            simp [h2, this]
          · simp [h2]
      | y :: z :: cs => simp
    | cons p' ps =>
      have hps : ∀ x ∈ p' :: ps, 0 ≤ x := fun x hx => hp x (List.mem_cons_of_mem _ hx)
      have hp0 : 0 ≤ p := hp p (by simp)
      have hrest : 0 ≤ (p' :: ps).sum := List.sum_nonneg hps
      have hqs : q = p + (p' :: ps).sum := by rw [hq, List.sum_cons]
      have hw : ∀ (y : Nat) (cs : List Nat), multinomialWeight n (p :: p' :: ps) (y :: cs) =
          if y ≤ n then (n.choose y : K) * p ^ y * multinomialWeight (n - y) (p' :: ps) cs else 0 := by
        intro y cs
        unfold multinomialWeight
        by_cases hl : (p' :: ps).length = cs.length
        · have hl2 : (p :: p' :: ps).length = (y :: cs).length := by simpa using hl
          rw [if_pos hl2, if_pos hl, deals]
          by_cases hy : y ≤ n
          · rw [if_pos hy, if_pos hy, List.zipWith_cons_cons, List.prod_cons]
            push_cast
            ring
          · rw [if_neg hy, if_neg hy]
            simp
        · have hl2 : ¬ (p :: p' :: ps).length = (y :: cs).length := by simpa using hl
          rw [if_neg hl2, if_neg hl]
          simp
      rw [multinomialRow]
      by_cases hq0 : 0 < q
      · rw [if_pos hq0, prob_bind]
        have hqne : q ≠ 0 := hq0.ne'
        simp only [prob_cons]
        cases c with
        | nil =>
          have : ((binomialDist n (p / q)).map fun e : Nat × K => e.2 * (0 : K)).sum = 0 := by
            refine List.sum_eq_zero ?_
            intro z hz
            obtain ⟨e, -, rfl⟩ := List.mem_map.1 hz
            simp
          dsimp only
          rw [this]
          simp [multinomialWeight]
        | cons y cs =>
          dsimp only
          rw [hw]
          rw [binomial_sum]
          have e : ((fun e : Nat × K => e.2 * if e.1 = y then
                (multinomialRow (M := Dist K) binomialDist (n - e.1) (q - p) (p' :: ps)).prob cs else 0) ∘
              fun k : Nat => (k, (n.choose k : K) * (p / q) ^ k * (1 - p / q) ^ (n - k))) =
              fun k : Nat => if k = y then (n.choose k : K) * (p / q) ^ k * (1 - p / q) ^ (n - k) *
                (multinomialRow (M := Dist K) binomialDist (n - k) (q - p) (p' :: ps)).prob cs else 0 := by
            funext k
            show (n.choose k : K) * (p / q) ^ k * (1 - p / q) ^ (n - k) * (if k = y then _ else 0) = _
            split
            · rfl
            · simp
          rw [e, sum_single]
          by_cases hy : y ≤ n
          · rw [if_pos (by omega), if_pos hy, ← ih (by simp) hps (n - y) (q - p) (by rw [hqs]; ring) cs]
            have h1 : q ^ n = q ^ y * q ^ (n - y) := by rw [← pow_add]; congr 1; omega
            have h2 : (1 - p / q) ^ (n - y) * q ^ (n - y) = (q - p) ^ (n - y) := by
              rw [← mul_pow]
              congr 1
              field_simp
            have h3 : (p / q) ^ y * q ^ y = p ^ y := by
              rw [← mul_pow]
              congr 1
              field_simp
            rw [h1, ← h2, ← h3]
            ring
          · rw [if_neg (by omega), if_neg hy, mul_zero]
      · rw [if_neg hq0]
        have hq00 : q = 0 := le_antisymm (not_lt.1 hq0) (by rw [hqs]; exact add_nonneg hp0 hrest)
        have hpz : p = 0 := by
          have := hqs
          rw [hq00] at this
          linarith
        have hrz : (p' :: ps).sum = 0 := by
          have := hqs
          rw [hq00, hpz, zero_add] at this
          exact this.symm
        rw [prob_cons]
        cases c with
        | nil => simp [multinomialWeight]
        | cons y cs =>
          dsimp only
          rw [hw, hpz, hq00]
          by_cases hy0 : 0 = y
          · subst hy0
            rw [if_pos rfl, ih (by simp) hps n 0 hrz.symm cs]
            simp
          · rw [if_neg hy0, mul_zero]
            have : (0 : K) ^ y = 0 := zero_pow (fun h => hy0 h.symm)
            rw [this]
            simp

/-- A run of a row: with probabilities that sum to at most one it never panics, and the counts sum to `n`. -/
theorem multinomialRow_run [Field K] [LinearOrder K] [IsStrictOrderedRing K] {σ : Type} (draw : Nat → K → σ → Nat × σ)
    (hdraw : ∀ n p g, (draw n p g).1 ≤ n) (ps : List K) (hne : ps ≠ []) (hp : ∀ p ∈ ps, 0 ≤ p) (n : Nat) (q : K)
    (hq : ps.sum ≤ q) (g : σ) :
    ∃ row g', multinomialRow (binomialDraw draw) n q ps g = some (row, g') ∧ row.length = ps.length ∧ row.sum = n := by
  induction ps generalizing n q g with
  | nil => exact absurd rfl hne
  | cons p ps ih =>
    cases ps with
    | nil => exact ⟨[n], g, rfl, rfl, by simp⟩
    | cons p' ps =>
      have hps : ∀ x ∈ p' :: ps, 0 ≤ x := fun x hx => hp x (List.mem_cons_of_mem _ hx)
      have hp0 : 0 ≤ p := hp p (by simp)
      have hrest : 0 ≤ (p' :: ps).sum := List.sum_nonneg hps
      rw [List.sum_cons] at hq
      rw [multinomialRow]
      by_cases hq0 : 0 < q
      · rw [if_pos hq0]
        have hc : 0 ≤ p / q ∧ p / q ≤ 1 := ⟨div_nonneg hp0 hq0.le, (div_le_one hq0).2 (by linarith)⟩
        obtain ⟨row, g', h1, h2, h3⟩ := ih (by simp) hps (n - (draw n (p / q) g).1) (q - p) (by linarith) (draw n (p / q) g).2
        refine ⟨(draw n (p / q) g).1 :: row, g', ?_, by simp [h2], ?_⟩
        · show (binomialDraw draw n (p / q) g).bind (fun r => (multinomialRow (binomialDraw draw) (n - r.1) (q - p) (p' :: ps) r.2).bind
            fun s => some (r.1 :: s.1, s.2)) = _
          have e : binomialDraw draw n (p / q) g = some (draw n (p / q) g) := if_pos hc
          rw [e, Option.bind_some, h1]
          rfl
        · rw [List.sum_cons, h3]
          have := hdraw n (p / q) g
          omega
      · rw [if_neg hq0]
        obtain ⟨row, g', h1, h2, h3⟩ := ih (by simp) hps n q (by linarith) g
        refine ⟨0 :: row, g', ?_, by simp [h2], by simp [h3]⟩
        show (multinomialRow (binomialDraw draw) n q (p' :: ps) g).bind (fun s => some (0 :: s.1, s.2)) = _
        rw [h1]
        rfl

theorem rowsOf_run {σ β : Type} (row : StateT σ Option β) (P : β → Prop) (h : ∀ g, ∃ r g', row g = some (r, g') ∧ P r)
    (k : Nat) (g : σ) : ∃ rs g', rowsOf row k g = some (rs, g') ∧ rs.length = k ∧ ∀ r ∈ rs, P r := by
  induction k generalizing g with
  | zero => exact ⟨[], g, rfl, rfl, by simp⟩
  | succ k ih =>
    obtain ⟨r, g1, h1, h2⟩ := h g
    obtain ⟨rs, g2, h3, h4, h5⟩ := ih g1
    refine ⟨r :: rs, g2, ?_, by simp [h4], ?_⟩
    · show (row g).bind (fun a => (rowsOf row k a.2).bind fun b => some (a.1 :: b.1, b.2)) = _
      rw [h1, Option.bind_some, h3]
      rfl
    · intro x hx
      rcases List.mem_cons.1 hx with rfl | hx
      · exact h2
      · exact h5 x hx

/-! ### The Cholesky factor -/

section chol
variable {K : Type} [Field K] [LinearOrder K]

/-- The entries computed so far: the rows before `i`, and in row `i` those before `j`. -/
def Done (i j i' j' : Nat) : Prop := j' ≤ i' ∧ (i' < i ∨ (i' = i ∧ j' < j))

/-- The state of the loops before entry `(i, j)`. -/
structure CholInv (sqrt : K → Option K) (cov l : Nat → Nat → K) (i j : Nat) : Prop where
  entry : ∀ i' j', Done i j i' j' → cholEntry sqrt cov l i' j' = some (l i' j')
  zero : ∀ i' j', ¬ Done i j i' j' → l i' j' = 0

theorem cholEntry_congr {sqrt : K → Option K} {cov l l' : Nat → Nat → K} {i j : Nat} (h1 : ∀ k < j, l i k = l' i k)
    (h2 : ∀ k ≤ j, j ≠ i → l j k = l' j k) (h3 : ∀ k < j, l j k = l' j k) : cholEntry sqrt cov l i j = cholEntry sqrt cov l' i j := by
  unfold cholEntry
  have e : ((List.range j).map fun k => l i k * l j k) = (List.range j).map fun k => l' i k * l' j k := by
    refine List.map_congr_left fun k hk => ?_
    rw [h1 k (List.mem_range.1 hk), h3 k (List.mem_range.1 hk)]
  rw [e]
  by_cases hij : i = j
  · simp only [hij, if_true]
  · simp only [hij, if_false]
    rw [h2 j (Nat.le_refl j) (Ne.symm hij)]

theorem CholInv.step {sqrt : K → Option K} {cov l : Nat → Nat → K} {i j : Nat} (h : CholInv sqrt cov l i j) (hj : j ≤ i) {x : K}
    (hx : cholEntry sqrt cov l i j = some x) : CholInv sqrt cov (setEntry l i j x) i (j + 1) := by
  have keep : ∀ i' j', ¬ (i' = i ∧ j' = j) → setEntry l i j x i' j' = l i' j' := fun i' j' hne => if_neg hne
  have same : ∀ i' j', Done i (j + 1) i' j' → cholEntry sqrt cov (setEntry l i j x) i' j' = cholEntry sqrt cov l i' j' := by
    intro i' j' ⟨hle, hd⟩
    refine cholEntry_congr ?_ ?_ ?_
    · intro k hk
      refine keep _ _ ?_
      rintro ⟨rfl, rfl⟩
      rcases hd with hd | hd <;> omega
    · intro k hk hne
      refine keep _ _ ?_
      rintro ⟨rfl, rfl⟩
      rcases hd with hd | hd <;> omega
    · intro k hk
      refine keep _ _ ?_
      rintro ⟨rfl, rfl⟩
      rcases hd with hd | hd <;> omega
  constructor
  · intro i' j' hd
    rw [same i' j' hd]
    by_cases he : i' = i ∧ j' = j
    · obtain ⟨rfl, rfl⟩ := he
      rw [hx]
      simp [setEntry]
    · rw [keep _ _ he]
      refine h.entry i' j' ⟨hd.1, ?_⟩
      rcases hd.2 with h1 | h1
      · exact .inl h1
      · right
        refine ⟨h1.1, ?_⟩
        have : ¬ j' = j := fun e => he ⟨h1.1, e⟩
        omega
  · intro i' j' hd
    have he : ¬ (i' = i ∧ j' = j) := by
      rintro ⟨rfl, rfl⟩
      exact hd ⟨hj, .inr ⟨rfl, by omega⟩⟩
    rw [keep _ _ he]
    refine h.zero i' j' ?_
    rintro ⟨h1, h2⟩
    refine hd ⟨h1, ?_⟩
    rcases h2 with h2 | h2
    · exact .inl h2
    · exact .inr ⟨h2.1, by omega⟩

theorem CholInv.row {sqrt : K → Option K} {cov l : Nat → Nat → K} {i : Nat} (h : CholInv sqrt cov l i (i + 1)) :
    CholInv sqrt cov l (i + 1) 0 := by
  constructor
  · intro i' j' hd
    refine h.entry i' j' ⟨hd.1, ?_⟩
    have := hd.1
    rcases hd.2 with h1 | h1 <;> omega
  · intro i' j' hd
    refine h.zero i' j' ?_
    rintro ⟨h1, h2⟩
    refine hd ⟨h1, ?_⟩
    rcases h2 with h2 | h2 <;> omega

theorem cholRow_inv {sqrt : K → Option K} {cov l l' : Nat → Nat → K} {i : Nat} (h : CholInv sqrt cov l i 0)
    (hr : cholRow sqrt cov l i = some l') : CholInv sqrt cov l' (i + 1) 0 := by
  have key : ∀ m ≤ i + 1, ∀ l1, (List.range m).foldlM (fun l j => (cholEntry sqrt cov l i j).map fun x => setEntry l i j x) l = some l1 →
      CholInv sqrt cov l1 i m := by
    intro m
    induction m with
    | zero =>
      intro _ l1 h1
      cases h1
      exact h
    | succ m ih =>
      intro hm l1 h1
      rw [List.range_succ, List.foldlM_append, Option.bind_eq_bind, Option.bind_eq_some_iff] at h1
      obtain ⟨l2, h2, h3⟩ := h1
      have i2 := ih (by omega) l2 h2
      rw [List.foldlM_cons, Option.bind_eq_bind, Option.bind_eq_some_iff] at h3
      obtain ⟨l3, h4, h5⟩ := h3
      cases h5
      obtain ⟨x, hx, rfl⟩ := Option.map_eq_some_iff.1 h4
      exact i2.step (by omega) hx
  exact (key (i + 1) (Nat.le_refl _) l' hr).row

theorem cholFactor_inv {sqrt : K → Option K} {cov : Nat → Nat → K} (d : Nat) {l : Nat → Nat → K}
    (h : cholFactor sqrt cov d = some l) : CholInv sqrt cov l d 0 := by
  unfold cholFactor at h
  induction d generalizing l with
  | zero =>
    cases h
    exact ⟨fun i' j' hd => by rcases hd.2 with h | h <;> omega, fun _ _ _ => rfl⟩
  | succ d ih =>
    rw [List.range_succ, List.foldlM_append, Option.bind_eq_bind, Option.bind_eq_some_iff] at h
    obtain ⟨l2, h2, h3⟩ := h
    rw [List.foldlM_cons, Option.bind_eq_bind, Option.bind_eq_some_iff] at h3
    obtain ⟨l3, h4, h5⟩ := h3
    cases h5
    exact cholRow_inv (ih h2) h4

theorem list_range_sum {M : Type} [AddCommMonoid M] (f : Nat → M) (n : Nat) :
    ((List.range n).map f).sum = ∑ k ∈ Finset.range n, f k := by
  induction n with
  | zero => rfl
  | succ n ih => rw [List.range_succ, List.map_append, List.sum_append, ih, Finset.sum_range_succ]; simp

/-- What an entry says: the product of the factor with its transpose, at that entry. -/
theorem CholInv.product {sqrt : K → Option K} {cov l : Nat → Nat → K} {i j : Nat} (h : CholInv sqrt cov l i j)
    (hs : ∀ s r, sqrt s = some r → r * r = s) {i' j' : Nat} (hd : Done i j i' j') (m : Nat) (hm : j' < m) :
    ∑ k ∈ Finset.range m, l i' k * l j' k = cov i' j' := by
  have hz : ∀ k, j' < k → l j' k = 0 := fun k hk => h.zero j' k (fun hd' => by have := hd'.1; omega)
  have e0 : ∑ k ∈ Finset.range m, l i' k * l j' k = ∑ k ∈ Finset.range (j' + 1), l i' k * l j' k := by
    symm
    refine Finset.sum_subset (fun k hk => ?_) ?_
    · rw [Finset.mem_range] at hk ⊢
      omega
    · intro k _ hk
      rw [Finset.mem_range] at hk
      rw [hz k (by omega), mul_zero]
  rw [e0, Finset.sum_range_succ]
  have he := h.entry i' j' hd
  unfold cholEntry at he
  dsimp only at he
  rw [list_range_sum] at he
  by_cases hij : i' = j'
  · subst hij
    rw [if_pos rfl] at he
    have := hs _ _ he
    rw [this]
    ring
  · rw [if_neg hij] at he
    split at he
    · cases he
    · rename_i hne
      have := Option.some.inj he
      rw [← this]
      field_simp
      ring

end chol

/-- The equations with the transposed factor can be solved. -/
theorem back_substitution (l : Nat → Nat → ℝ) (i : Nat) (hd : ∀ k < i, l k k ≠ 0) (hz : ∀ a b, a < b → l a b = 0) (y : Nat → ℝ) :
    ∃ w : Nat → ℝ, ∀ k < i, ∑ a ∈ Finset.range i, w a * l a k = y k := by
  induction i generalizing y with
  | zero => exact ⟨fun _ => 0, fun k hk => by omega⟩
  | succ i ih =>
    obtain ⟨w, hw⟩ := ih (fun k hk => hd k (by omega)) (fun k => y k - y i / l i i * l i k)
    refine ⟨fun a => if a = i then y i / l i i else w a, fun k hk => ?_⟩
    dsimp only
    rw [Finset.sum_range_succ, if_pos rfl]
    have e : ∑ a ∈ Finset.range i, (if a = i then y i / l i i else w a) * l a k = ∑ a ∈ Finset.range i, w a * l a k := by
      refine Finset.sum_congr rfl fun a ha => ?_
      rw [Finset.mem_range] at ha
      rw [if_neg (by omega)]
    rw [e]
    by_cases hk' : k < i
    · rw [hw k hk']
      ring
    · obtain rfl : k = i := by omega
      have : ∑ a ∈ Finset.range k, w a * l a k = 0 := by
        refine Finset.sum_eq_zero fun a ha => ?_
        rw [Finset.mem_range] at ha
        rw [hz a k ha, mul_zero]
      rw [this, zero_add]
      have := hd k (by omega)
      field_simp

/-- The square root of `f64`. -/
noncomputable def realSqrt (s : ℝ) : Option ℝ := if 0 ≤ s then some (Real.sqrt s) else none

theorem realSqrt_sq (s r : ℝ) (h : realSqrt s = some r) : r * r = s := by
  unfold realSqrt at h
  split at h
  · rename_i h0
    rw [← Option.some.inj h]
    exact Real.mul_self_sqrt h0
  · cases h

/-- The pivot of a positive definite matrix is positive. -/
theorem pivot_pos {cov l : Nat → Nat → ℝ} {d i : Nat} (hcov : PosDefN d cov) (hi : i < d) (hinv : CholInv realSqrt cov l i i)
    (hdiag : ∀ k < i, l k k ≠ 0) : 0 < cov i i - ∑ k ∈ Finset.range i, l i k * l i k := by
  have hz : ∀ a b, a < b → l a b = 0 := fun a b hab => hinv.zero a b (fun hd => by have := hd.1; omega)
  obtain ⟨w, hw⟩ := back_substitution l i hdiag hz (fun k => l i k)
  let x : Nat → ℝ := fun a => if a < i then w a else if a = i then -1 else 0
  have hpos := hcov.2 x ⟨i, hi, by simp [x]⟩
  have hcut : ∀ f : Nat → ℝ, (∀ a, i < a → f a = 0) → ∑ a ∈ Finset.range d, f a = ∑ a ∈ Finset.range i, f a + f i := by
    intro f hf
    rw [← Finset.sum_range_succ]
    symm
    refine Finset.sum_subset (fun a ha => ?_) ?_
    · rw [Finset.mem_range] at ha ⊢
      omega
    · intro a _ ha
      rw [Finset.mem_range] at ha
      exact hf a (by omega)
  have hx0 : ∀ a, i < a → x a = 0 := fun a ha => by
    simp only [x]
    rw [if_neg (by omega), if_neg (by omega)]
  have hxi : x i = -1 := by simp [x]
  have hxw : ∀ a < i, x a = w a := fun a ha => by simp only [x]; rw [if_pos ha]
  have hcab : ∀ a < i, ∀ b < i, cov a b = ∑ k ∈ Finset.range i, l a k * l b k := by
    intro a ha b hb
    rcases Nat.le_total b a with hba | hab
    · exact (hinv.product realSqrt_sq ⟨hba, .inl ha⟩ i (by omega)).symm
    · rw [hcov.1 a b, ← hinv.product realSqrt_sq (i' := b) (j' := a) ⟨hab, .inl hb⟩ i (by omega)]
      exact Finset.sum_congr rfl fun k _ => mul_comm _ _
  have hcia : ∀ a < i, cov i a = ∑ k ∈ Finset.range i, l i k * l a k := fun a ha =>
    (hinv.product realSqrt_sq ⟨by omega, .inr ⟨rfl, ha⟩⟩ i (by omega)).symm
  have hinner : ∀ a, ∑ b ∈ Finset.range d, x a * cov a b * x b =
      ∑ b ∈ Finset.range i, x a * cov a b * w b - x a * cov a i := by
    intro a
    rw [hcut (fun b => x a * cov a b * x b) (fun b hb => by rw [hx0 b hb, mul_zero]), hxi]
    have : ∑ b ∈ Finset.range i, x a * cov a b * x b = ∑ b ∈ Finset.range i, x a * cov a b * w b :=
      Finset.sum_congr rfl fun b hb => by rw [hxw b (Finset.mem_range.1 hb)]
    rw [this]
    ring
  simp only [hinner] at hpos
  rw [hcut (fun a => ∑ b ∈ Finset.range i, x a * cov a b * w b - x a * cov a i)
    (fun a ha => by rw [hx0 a ha]; simp), hxi] at hpos
  have q1 : ∑ b ∈ Finset.range i, -1 * cov i b * w b = -∑ k ∈ Finset.range i, l i k * l i k := by
    calc ∑ b ∈ Finset.range i, -1 * cov i b * w b
        = ∑ b ∈ Finset.range i, ∑ k ∈ Finset.range i, -(l i k * (w b * l b k)) := by
          refine Finset.sum_congr rfl fun b hb => ?_
          rw [hcia b (Finset.mem_range.1 hb), Finset.mul_sum, Finset.sum_mul]
          exact Finset.sum_congr rfl fun k _ => by ring
      _ = ∑ k ∈ Finset.range i, ∑ b ∈ Finset.range i, -(l i k * (w b * l b k)) := Finset.sum_comm
      _ = ∑ k ∈ Finset.range i, -(l i k * l i k) := by
          refine Finset.sum_congr rfl fun k hk => ?_
          rw [Finset.sum_neg_distrib, ← Finset.mul_sum, hw k (Finset.mem_range.1 hk)]
      _ = _ := Finset.sum_neg_distrib _
  have q2 : ∑ a ∈ Finset.range i, (∑ b ∈ Finset.range i, x a * cov a b * w b - x a * cov a i) = 0 := by
    have e1 : ∑ a ∈ Finset.range i, ∑ b ∈ Finset.range i, x a * cov a b * w b = ∑ k ∈ Finset.range i, l i k * l i k := by
      calc ∑ a ∈ Finset.range i, ∑ b ∈ Finset.range i, x a * cov a b * w b
          = ∑ a ∈ Finset.range i, ∑ b ∈ Finset.range i, ∑ k ∈ Finset.range i, (w a * l a k) * (w b * l b k) := by
            refine Finset.sum_congr rfl fun a ha => Finset.sum_congr rfl fun b hb => ?_
            rw [hxw a (Finset.mem_range.1 ha), hcab a (Finset.mem_range.1 ha) b (Finset.mem_range.1 hb), Finset.mul_sum, Finset.sum_mul]
            exact Finset.sum_congr rfl fun k _ => by ring
        _ = ∑ a ∈ Finset.range i, ∑ k ∈ Finset.range i, ∑ b ∈ Finset.range i, (w a * l a k) * (w b * l b k) :=
            Finset.sum_congr rfl fun a _ => Finset.sum_comm
        _ = ∑ k ∈ Finset.range i, ∑ a ∈ Finset.range i, ∑ b ∈ Finset.range i, (w a * l a k) * (w b * l b k) := Finset.sum_comm
        _ = _ := by
            refine Finset.sum_congr rfl fun k hk => ?_
            rw [← Finset.sum_mul_sum, hw k (Finset.mem_range.1 hk)]
    have e2 : ∑ a ∈ Finset.range i, x a * cov a i = ∑ k ∈ Finset.range i, l i k * l i k := by
      have : ∑ a ∈ Finset.range i, x a * cov a i = -∑ b ∈ Finset.range i, -1 * cov i b * w b := by
        rw [← Finset.sum_neg_distrib]
        refine Finset.sum_congr rfl fun a ha => ?_
        rw [hxw a (Finset.mem_range.1 ha), hcov.1 a i]
        ring
      rw [this, q1, neg_neg]
    rw [Finset.sum_sub_distrib, e1, e2, sub_self]
  rw [q1, q2] at hpos
  linarith

/-- A positive definite matrix is factored. -/
theorem cholFactor_some {cov : Nat → Nat → ℝ} {d : Nat} (hcov : PosDefN d cov) :
    ∃ l, cholFactor realSqrt cov d = some l ∧ ∀ i < d, 0 < l i i := by
  have key : ∀ i ≤ d, ∃ l, (List.range i).foldlM (cholRow realSqrt cov) (fun _ _ => 0) = some l ∧ CholInv realSqrt cov l i 0 ∧
      ∀ k < i, 0 < l k k := by
    intro i
    induction i with
    | zero =>
      intro _
      exact ⟨_, rfl, ⟨fun i' j' hd => by rcases hd.2 with h | h <;> omega, fun _ _ _ => rfl⟩, fun k hk => by omega⟩
    | succ i ih =>
      intro hi
      obtain ⟨l, h1, h2, h3⟩ := ih (by omega)
      have row : ∀ m ≤ i, ∃ l', (List.range m).foldlM
          (fun l j => (cholEntry realSqrt cov l i j).map fun x => setEntry l i j x) l = some l' ∧
          CholInv realSqrt cov l' i m ∧ ∀ k < i, 0 < l' k k := by
        intro m
        induction m with
        | zero => intro _; exact ⟨l, rfl, h2, h3⟩
        | succ m ihm =>
          intro hm
          obtain ⟨l', g1, g2, g3⟩ := ihm (by omega)
          have he : cholEntry realSqrt cov l' i m =
              some ((cov i m - ((List.range m).map fun k => l' i k * l' m k).sum) / l' m m) := by
            unfold cholEntry
            have n1 : ¬ i = m := by omega
            dsimp only
            rw [if_neg n1, if_neg (g3 m (by omega)).ne']
          refine ⟨_, ?_, g2.step (by omega) he, fun k hk => ?_⟩
          · rw [List.range_succ, List.foldlM_append, g1, Option.bind_eq_bind, Option.bind_some, List.foldlM_cons, he]
            rfl
          · have : ¬ (k = i ∧ k = m) := by omega
            show 0 < (if k = i ∧ k = m then _ else l' k k)
            rw [if_neg this]
            exact g3 k hk
      obtain ⟨l', g1, g2, g3⟩ := row i (Nat.le_refl i)
      have hp := pivot_pos hcov (by omega) g2 (fun k hk => (g3 k hk).ne')
      rw [← list_range_sum] at hp
      have he : cholEntry realSqrt cov l' i i = some (Real.sqrt (cov i i - ((List.range i).map fun k => l' i k * l' i k).sum)) := by
        unfold cholEntry realSqrt
        dsimp only
        rw [if_pos rfl, if_pos hp.le]
      refine ⟨setEntry l' i i (Real.sqrt (cov i i - ((List.range i).map fun k => l' i k * l' i k).sum)), ?_,
        (g2.step (Nat.le_refl i) he).row, fun k hk => ?_⟩
      · rw [List.range_succ, List.foldlM_append, h1, Option.bind_eq_bind, Option.bind_some, List.foldlM_cons]
        unfold cholRow
        rw [List.range_succ, List.foldlM_append, g1, Option.bind_eq_bind, Option.bind_some, List.foldlM_cons, he]
        rfl
      · by_cases hki : k = i
        · subst hki
          show 0 < (if k = k ∧ k = k then _ else _)
          rw [if_pos ⟨rfl, rfl⟩]
          exact Real.sqrt_pos.2 hp
        · have : ¬ (k = i ∧ k = i) := fun h => hki h.1
          show 0 < (if k = i ∧ k = i then _ else l' k k)
          rw [if_neg this]
          exact g3 k (by omega)
  obtain ⟨l, h1, _, h3⟩ := key d (Nat.le_refl d)
  exact ⟨l, h1, h3⟩

/-- The constant of the von Mises sampler in closed form. -/
theorem vonmisesR_eq {kappa : ℝ} (hk : 0 < kappa) : kappa * vonmisesR kappa = (1 + Real.sqrt (1 + 4 * kappa * kappa)) / 2 := by
  unfold vonmisesR
  dsimp only
  have hS : Real.sqrt (1 + 4 * kappa * kappa) ^ 2 = 1 + 4 * kappa * kappa := Real.sq_sqrt (by positivity)
  have hS1 : 1 < Real.sqrt (1 + 4 * kappa * kappa) := by
    rw [Real.lt_sqrt (by norm_num)]
    nlinarith [mul_pos hk hk]
  generalize Real.sqrt (1 + 4 * kappa * kappa) = S at *
  have hT : Real.sqrt (2 * (1 + S)) ^ 2 = 2 * (1 + S) := Real.sq_sqrt (by linarith)
  have hT2 : 2 < Real.sqrt (2 * (1 + S)) := by
    rw [Real.lt_sqrt (by norm_num)]
    linarith
  generalize Real.sqrt (2 * (1 + S)) = T at *
  have hS2 : S = T ^ 2 / 2 - 1 := by linarith
  have hk4 : 16 * kappa ^ 2 = T ^ 2 * (T ^ 2 - 4) := by
    rw [hS2] at hS
    nlinarith
  subst hS2
  have e1 : 1 + (T ^ 2 / 2 - 1) - T = T * (T - 2) / 2 := by ring
  rw [e1]
  have hT0 : T ≠ 0 := by linarith
  have hTm : T - 2 ≠ 0 := by linarith
  field_simp
  linear_combination hk4

theorem vonmisesR_gt {kappa : ℝ} (hk : 0 < kappa) : 1 < vonmisesR kappa := by
  have h := vonmisesR_eq hk
  have hS : 2 * kappa < Real.sqrt (1 + 4 * kappa * kappa) := by
    rw [Real.lt_sqrt (by linarith)]
    nlinarith
  nlinarith

theorem vonmisesR_lt {kappa : ℝ} (hk : 0 < kappa) : kappa * (vonmisesR kappa - 1) < 2 := by
  have h := vonmisesR_eq hk
  have hS : Real.sqrt (1 + 4 * kappa * kappa) < 1 + 2 * kappa := by
    rw [Real.sqrt_lt' (by linarith)]
    nlinarith
  linarith

theorem acos?_of {w : ℝ} (h1 : -1 ≤ w) (h2 : w ≤ 1) : acos? w = some (Real.arccos w) := if_pos ⟨h1, h2⟩

end Rumpy
