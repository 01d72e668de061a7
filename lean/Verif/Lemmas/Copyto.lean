import Verif.Model.Copyto
import Verif.Spec.Copyto
import Verif.Lemmas.Alias
import Verif.Lemmas.Select
/-!
# Lemmas about `copyto`
-/

namespace Rumpy
open Spec

/-- A loop that may store one element per round: what it leaves behind, when nothing is stored in a cell that a
later round reads and no cell is the target of two rounds. -/
theorem foldl_stores {ι : Type} (f : (Int → Elem) → ι → Option Elem) (d : ι → Int) (R : ι → Int → Prop)
    (step : (Int → Elem) → ι → Int → Elem)
    (hstep : ∀ m i, step m i = match f m i with
      | some y => fun p => if p = d i then y else m p
      | none => m)
    (hf : ∀ i m m', (∀ p, R i p → m p = m' p) → f m i = f m' i) :
    ∀ (l : List ι) (mem : Int → Elem), (l.Pairwise fun i j => d i ≠ d j ∧ ∀ p, R j p → d i ≠ p) →
      (∀ i ∈ l, ∀ y, f mem i = some y → l.foldl step mem (d i) = y) ∧
      (∀ p, (∀ i ∈ l, (f mem i).isSome → d i ≠ p) → l.foldl step mem p = mem p)
  | [], mem, _ => by simp
  | i :: l, mem, hp => by
    rw [List.pairwise_cons] at hp
    obtain ⟨h1, h2⟩ := foldl_stores f d R step hstep hf l (step mem i) hp.2
    have hother : ∀ q, q ≠ d i → step mem i q = mem q := by
      intro q hq
      rw [hstep]
      split
      · exact if_neg hq
      · rfl
    have hsame : ∀ j ∈ l, f (step mem i) j = f mem j := by
      intro j hj
      apply hf
      intro p hRp
      exact hother p fun e => (hp.1 j hj).2 p hRp e.symm
    rw [List.foldl_cons]
    refine ⟨fun j hj y hy => ?_, fun p hpn => ?_⟩
    · rcases List.mem_cons.1 hj with rfl | hj
      · rw [h2 (d j) fun k hk _ => fun e => (hp.1 k hk).1 e.symm, hstep, hy]
        exact if_pos rfl
      · exact h1 j hj y (by rw [hsame j hj]; exact hy)
    · rw [h2 p fun j hj hs => hpn j (by simp [hj]) (by rw [← hsame j hj]; exact hs)]
      rw [hstep]
      split
      · next y hy => exact if_neg fun e => hpn i (by simp) (by rw [hy]; rfl) e.symm
      · rfl

/-- Storing a row of elements one after the other. -/
theorem foldl_block (val : Nat → Elem) (d : Nat → Int) : ∀ (l : List Nat) (mem : Int → Elem), (l.Pairwise fun i j => d i ≠ d j) →
    (∀ k ∈ l, l.foldl (fun m k => fun p => if p = d k then val k else m p) mem (d k) = val k) ∧
    (∀ p, (∀ k ∈ l, d k ≠ p) → l.foldl (fun m k => fun p => if p = d k then val k else m p) mem p = mem p) := by
  intro l mem hp
  obtain ⟨h1, h2⟩ := foldl_stores (fun _ k => some (val k)) d (fun _ _ => False)
    (fun m k => fun p => if p = d k then val k else m p) (fun _ _ => rfl) (fun _ _ _ _ => rfl) l mem
    (hp.imp fun h => ⟨h, fun _ hf => hf.elim⟩)
  exact ⟨fun k hk => h1 k hk _ rfl, fun p hq => h2 p fun k hk _ => hq k hk⟩

theorem zip_map_self {l : List ι} (f : ι → β) (g : ι → γ) : (l.map f).zip (l.map g) = l.map fun i => (f i, g i) := by
  induction l with
  | nil => rfl
  | cons i l ih => simp [ih]

theorem cStridesAux_append (xs : List Nat) (n : Nat) : ∀ item : Nat,
    cStridesAux item (xs ++ [n]) = ((cStridesAux (item * n) xs).1 ++ [(item : Int)], (cStridesAux (item * n) xs).2) := by
  induction xs with
  | nil => intro item; simp [cStridesAux]
  | cons m xs ih => intro item; simp only [List.cons_append, cStridesAux, ih item]

/-- Column-major steps are the row-major steps of the reversed shape, reversed. -/
theorem cStrides_reverse : ∀ (s : List Nat) (item : Nat), (cStrides s.reverse item).reverse = fStridesLoop s item
  | [], item => rfl
  | n :: s, item => by
    unfold cStrides
    rw [List.reverse_cons, cStridesAux_append]
    show ((cStridesAux (item * n) s.reverse).1 ++ [(item : Int)]).reverse = _
    rw [List.reverse_append]
    show (item : Int) :: (cStrides s.reverse (item * n)).reverse = _
    rw [cStrides_reverse s (item * n), fStridesLoop]
    push_cast
    rfl

theorem isFAux_fStrides : ∀ (s : List Nat) (k : Int), (isFAux s (fStridesLoop s k) (.run k)).result = true
  | [], k => rfl
  | n :: s, k => by
    simp only [fStridesLoop, isFAux, contigStep]
    split
    · rw [isFAux_done]; rfl
    · rw [if_neg (by simp)]
      exact isFAux_fStrides s (k * n)

end Rumpy
