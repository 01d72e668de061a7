import Verif.Model.Covariance
import Verif.Lemmas.Moments
import Verif.Props.Matmul
import Verif.Props.EinsumPair
import Verif.Props.Triangle
import Verif.Lemmas.Linalg
import Mathlib.Algebra.Order.BigOperators.Ring.Finset
import Mathlib.Tactic.FieldSimp
/-! # Lemmas for covariances and weighted means -/

namespace Rumpy
open Spec Props

theorem sum_range_list [AddCommMonoid K] (f : Nat → K) (n : Nat) : ((List.range n).map f).sum = ∑ k ∈ Finset.range n, f k := by
  induction n with
  | zero => rfl
  | succ n ih => rw [List.range_succ, List.map_append, List.sum_append, ih, Finset.sum_range_succ]; simp

theorem meanOf_range [Field K] (f : Nat → K) (n : Nat) : meanOf ((List.range n).map f) = meanN n f := by
  unfold meanOf meanN
  rw [sum_range_list, List.length_map, List.length_range]

/-- The code of the matrix case. -/
theorem covMatrix_is {K : Type} [Field K] (typed : Bool) {out : DType} (hout : out ∈ productDTypes) {ddof : Nat} {h : Held K}
    (hw : h.view.WF) (hi : 0 < h.view.item) {v n : Nat} (hs : h.view.shape = [v, n]) (hn : ddof < n) :
    ∃ r, covMatrix typed out ddof h = some r ∧ r.Is ⟨[v, v], fun idx =>
      some (covN n ddof (fun k => h.nd.get [idx.getD 0 0, k]) (fun k => h.nd.get [idx.getD 1 0, k]))⟩ := by
  have hl : h.view.shape.length = 2 := by rw [hs]; rfl
  have h0 : h.view.shape.getD 0 0 = v := by rw [hs]; rfl
  have h1 : h.view.shape.getD 1 0 = n := by rw [hs]; rfl
  obtain ⟨m, hm, mis⟩ := (meanStep_ok (K := K) typed).step h 1 hw hi (by omega) (by omega) (by rw [h1]; omega)
  have hmsh : m.shape = [v] := by
    rw [mis.1]
    show h.view.shape.eraseIdx 1 = [v]
    rw [hs]; rfl
  have hmd := mis.denote hi 0
  have hres : ((m.view h.view.item).reshape [v, 1]).isSome := by
    rw [C08_reshape_succeeds_iff]
    refine ⟨?_, Or.inl rfl⟩
    show size m.shape = _
    rw [hmsh]
    simp [size]
  obtain ⟨mv, hmv⟩ := Option.isSome_iff_exists.1 hres
  obtain ⟨mvs, mvw⟩ := reshape_shape_wf hmv
  have hmean : ∀ i < v, (mv.denote (m.mem h.view.item 0)).get [i, 0] = meanN n fun k => h.nd.get [i, k] := by
    intro i hiv
    obtain ⟨-, -, h3⟩ := C08_reshape_partial (m.mem h.view.item 0) (m.view h.view.item) mv (View.WF.fresh _ _) _ rfl hmv
    have e : (mv.denote (m.mem h.view.item 0)).get [i, 0] = ((m.view h.view.item).denote (m.mem h.view.item 0)).get [i] := by
      refine denote_get_of_toList h3 ?_ ?_ ?_
      · show InShape mv.shape _
        rw [mvs]
        exact inShape_pair hiv Nat.one_pos
      · show InShape m.shape [i]
        rw [hmsh]
        exact ⟨hiv, trivial⟩
      · show Spec.rank mv.shape [i, 0] = Spec.rank m.shape [i]
        rw [mvs, hmsh]
        simp [Spec.rank, size]
    rw [e, hmd.2 [i] (by show InShape m.shape [i]; rw [hmsh]; exact ⟨hiv, trivial⟩)]
    show meanOf ((List.range (h.view.shape.getD 1 0)).map fun k => h.nd.get [i, k]) = _
    rw [h1, meanOf_range]
  obtain ⟨c, hc, cis⟩ := binaryOp_is typed (fun a b : K => a - b) (h := h) (g := ⟨m.mem h.view.item 0, mv⟩) hw mvw (out := [v, n])
    (by
      show IsBroadcast h.view.shape mv.shape _
      rw [hs, mvs]
      exact isBroadcast_set (s := [v, n]) (ax := 1) (by simp)) 0
  have cis : c.Is ⟨[v, n], fun idx => h.nd.get idx - meanN n fun k => h.nd.get [idx.getD 0 0, k]⟩ := by
    refine cis.congr ⟨rfl, ?_⟩
    intro idx hidx
    have hidx : InShape [v, n] idx := hidx
    dsimp only
    rw [bcast_self (a := h.nd) (s := [v, n]) hs hidx, bcast_set_get (a := (Held.mk (m.mem h.view.item 0) mv).nd) (s := [v, n]) (ax := 1) mvs hidx]
    obtain ⟨i, j, rfl, hi', hj'⟩ := inShape_two hidx
    show _ - (mv.denote (m.mem h.view.item 0)).get [i, 0] = _
    rw [hmean i hi']
    rfl
  have hpos := itemsize_pos (productDTypes_sum hout)
  have hcd := cis.denote hpos 0
  have hcsh : (Held.of c (Rumpy.DType.itemsize out) 0).view.shape = [v, n] := cis.1
  obtain ⟨p, hp, psame, pw, -⟩ := C42_matmul_partial out hout (Held.of c (Rumpy.DType.itemsize out) 0)
    ⟨(Held.of c (Rumpy.DType.itemsize out) 0).mem, (Held.of c (Rumpy.DType.itemsize out) 0).view.transpose⟩
    (held_of_wf _ _ _) (View.WF.viewWith (by
      show (Held.of c _ 0).view.strides.reverse.length = (Held.of c _ 0).view.shape.reverse.length
      rw [List.length_reverse, List.length_reverse, (held_of_wf c _ 0).len])) [] [] [] v n v hcsh
    (by show (Held.of c _ 0).view.shape.reverse = _; rw [hcsh]; rfl) (isBroadcastAll_left [])
    ⟨.inl rfl, by simp⟩ ⟨.inl rfl, by simp⟩ (fun s hs => cStrides_dvd _ _ _ hs)
    (fun s hs => cStrides_dvd _ _ _ (List.mem_reverse.1 hs))
  have hpsh : p.view.shape = [v, v] := psame.1
  obtain ⟨r, hr, ris⟩ := binaryOp_is typed (fun x y : K => some (x / y)) (h := p) (g := Held.of (oneOf ((n - ddof : Nat) : K)) 8 0) pw
    (held_of_wf _ _ _) (out := [v, v]) (by
      rw [hpsh]
      exact isBroadcast_one (by simp)) none
  refine ⟨r, ?_, ris.congr ⟨rfl, ?_⟩⟩
  · unfold covMatrix
    dsimp only
    rw [if_neg (by omega), h0, h1, if_neg (by omega), hm]
    dsimp only
    rw [hmv]
    dsimp only
    rw [hc]
    dsimp only
    rw [hp]
    exact hr
  · intro idx hidx
    have hidx : InShape [v, v] idx := hidx
    dsimp only
    rw [bcast_self (a := p.nd) hpsh hidx, bcast_one_get (a := (Held.of (oneOf ((n - ddof : Nat) : K)) 8 0).nd) rfl (by simp) hidx]
    have e2 : (Held.of (oneOf ((n - ddof : Nat) : K)) 8 0).nd.get [0] = ((n - ddof : Nat) : K) :=
      ((oneOf_is ((n - ddof : Nat) : K)).denote (by norm_num) 0).2 [0] ⟨Nat.one_pos, trivial⟩
    rw [e2, psame.2 idx (by show InShape p.view.shape _; rw [hpsh]; exact hidx)]
    obtain ⟨i, j, rfl, hi', hj'⟩ := inShape_two hidx
    unfold covN
    rw [Nat.cast_sub hn.le]
    refine congrArg (fun s : K => some (s / ((n : K) - (ddof : K)))) ?_
    show (∑ k ∈ Finset.range n, _) = _
    refine Finset.sum_congr rfl fun k hk => ?_
    have hkn := Finset.mem_range.1 hk
    have e3 : ∀ i < v, (Held.of c (Rumpy.DType.itemsize out) 0).nd.get [i, k] = h.nd.get [i, k] - meanN n fun k => h.nd.get [i, k] :=
      fun i hi => hcd.2 [i, k] (by show InShape c.shape _; rw [cis.1]; exact inShape_pair hi hkn)
    have e4 : (Held.mk (Held.of c (Rumpy.DType.itemsize out) 0).mem (Held.of c (Rumpy.DType.itemsize out) 0).view.transpose).nd.get [k, j] =
        (Held.of c (Rumpy.DType.itemsize out) 0).nd.get [j, k] :=
      (C06_transpose (Held.of c (Rumpy.DType.itemsize out) 0).mem _ (held_of_wf c _ 0)).2 [k, j] (by
        show InShape (Held.of c _ 0).view.shape.reverse _
        rw [hcsh]
        exact inShape_pair hkn hj')
    show ((Held.of c (Rumpy.DType.itemsize out) 0).nd.coreAt [] [v, n] []).get [i, k] *
      ((Held.mk (Held.of c (Rumpy.DType.itemsize out) 0).mem (Held.of c (Rumpy.DType.itemsize out) 0).view.transpose).nd.coreAt [] [n, v] []).get [k, j] = _
    rw [coreAt_self (a := (Held.of c (Rumpy.DType.itemsize out) 0).nd) (loop := []) (core := [v, n]) (l := []) hcsh trivial (inShape_pair hi' hkn),
      coreAt_self (a := (Held.mk (Held.of c (Rumpy.DType.itemsize out) 0).mem (Held.of c (Rumpy.DType.itemsize out) 0).view.transpose).nd)
        (loop := []) (core := [n, v]) (l := []) (by show (Held.of c _ 0).view.shape.reverse = _; rw [hcsh]; rfl) trivial (inShape_pair hkn hj')]
    rw [List.nil_append, List.nil_append, e4, e3 i hi', e3 j hj']
    rfl

end Rumpy
