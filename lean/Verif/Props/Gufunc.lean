import Verif.Lemmas.Gufunc
import Verif.Lemmas.Grid
import Verif.Model.Matmul
/-!
# C40: generalised ufunc signatures and dimensions
-/

namespace Props
open Spec Rumpy

/-! ### Reading signatures -/

/-- C40: every written form of a signature, with white space wherever the grammar allows it, is
read as that signature. -/
theorem C40_parse_accepts (sig : GuSig) (s : List Char) (h : SigText sig s) : parseSignature s = some sig :=
  parseSignature_text h

example : SigText ⟨[["m".toList, "n".toList], ["n".toList]], [["m".toList]]⟩ "(m, n),(n) -> (m)".toList := by
  have hn : ∀ c : Char, ¬ IsSpace c → c ≠ '(' → c ≠ ')' → c ≠ ',' → c ≠ '>' → IsName [c] := fun c a b d e f =>
    ⟨by simp, by simp [a, b, d, e, f]⟩
  have m := hn 'm' (by decide) (by decide) (by decide) (by decide) (by decide)
  have n := hn 'n' (by decide) (by decide) (by decide) (by decide) (by decide)
  have b0 : Blank [] := by simp [Blank]
  have b1 : Blank [' '] := by simp [Blank, IsSpace]
  refine ⟨by simp, "(m, n),(n) ".toList, " (m)".toList, ⟨["(m, n)".toList, "(n) ".toList], ?_, by simp, fun _ => rfl⟩,
    ⟨[" (m)".toList], ?_, by simp, fun _ => rfl⟩, rfl⟩
  · refine .cons ⟨?_, "m, n".toList, ["m".toList, " n".toList], ?_, by simp, fun _ => rfl, [], [], b0, b0, rfl⟩
      (.cons ⟨?_, "n".toList, ["n".toList], ?_, by simp, fun _ => rfl, [], [' '], b0, b1, rfl⟩ .nil)
    · intro x hx
      rcases List.mem_cons.1 hx with rfl | hx
      · exact m
      · rw [List.mem_singleton.1 hx]; exact n
    · exact .cons ⟨[], [], b0, b0, rfl⟩ (.cons ⟨[' '], [], b1, b0, rfl⟩ .nil)
    · intro x hx
      rw [List.mem_singleton.1 hx]; exact n
    · exact .cons ⟨[], [], b0, b0, rfl⟩ .nil
  · refine .cons ⟨?_, "m".toList, ["m".toList], ?_, by simp, fun _ => rfl, [' '], [], b1, b0, rfl⟩ .nil
    · intro x hx
      rw [List.mem_singleton.1 hx]; exact m
    · exact .cons ⟨[], [], b0, b0, rfl⟩ .nil

/-- What every accepted text satisfies: it has an arrow, there is an operand, the parentheses on
each side balance in number and no dimension has an empty name. -/
theorem parseCoreDims_names {s : List Char} {names : List (List Char)} (h : parseCoreDims s = some names) :
    ∀ n ∈ names, n ≠ [] := by
  unfold parseCoreDims at h
  dsimp only at h
  split at h
  · cases h
  · split at h
    · cases h; simp
    · split at h
      · cases h
      · next hx =>
        cases h
        intro n hn e
        subst e
        apply hx
        rw [List.any_eq_true]
        exact ⟨[], hn, rfl⟩

theorem parseListLoop_facts : ∀ (s : List Char) (depth : Int) (acc : List Char) (res : List (List (List Char)))
    (r : Int × List (List (List Char))), parseListLoop s depth acc res = some r →
    r.1 = depth + s.count '(' - s.count ')' ∧ ((∀ op ∈ res, ∀ n ∈ op, n ≠ []) → ∀ op ∈ r.2, ∀ n ∈ op, n ≠ [])
  | [], depth, acc, res, r, h => by
    simp only [parseListLoop, Option.some.injEq] at h
    subst h
    simp
  | c :: s, depth, acc, res, r, h => by
    rw [parseListLoop] at h
    by_cases h1 : c = '('
    · subst h1
      rw [if_pos rfl] at h
      obtain ⟨e, hr⟩ := parseListLoop_facts s _ _ _ _ h
      refine ⟨?_, hr⟩
      rw [e, List.count_cons_self, List.count_cons_of_ne (by decide)]
      omega
    · rw [if_neg h1] at h
      by_cases h2 : c = ')'
      · subst h2
        rw [if_pos rfl] at h
        rw [List.count_cons_self, List.count_cons_of_ne (by decide)]
        by_cases h3 : depth - 1 = 0
        · rw [if_pos h3] at h
          cases hp : parseCoreDims (')' :: acc).reverse with
          | none => rw [hp] at h; cases h
          | some dd =>
            rw [hp] at h
            obtain ⟨e, hr⟩ := parseListLoop_facts s _ _ _ _ h
            refine ⟨by rw [e]; omega, fun hh => hr fun op hop => ?_⟩
            rcases List.mem_append.1 hop with hop | hop
            · exact hh op hop
            · rw [List.mem_singleton.1 hop]
              exact parseCoreDims_names hp
        · rw [if_neg h3] at h
          obtain ⟨e, hr⟩ := parseListLoop_facts s _ _ _ _ h
          exact ⟨by rw [e]; omega, hr⟩
      · rw [if_neg h2] at h
        rw [List.count_cons_of_ne h1, List.count_cons_of_ne h2]
        split at h
        · exact parseListLoop_facts s _ _ _ _ h
        · exact parseListLoop_facts s _ _ _ _ h

theorem parseCoreDimsList_facts {s : List Char} {ops : List (List (List Char))} (h : parseCoreDimsList s = some ops) :
    (trim s).count '(' = (trim s).count ')' ∧ ∀ op ∈ ops, ∀ n ∈ op, n ≠ [] := by
  unfold parseCoreDimsList at h
  dsimp only at h
  by_cases he : (trim s).isEmpty = true
  · rw [if_pos he] at h
    cases h
    rw [List.isEmpty_iff.1 he]
    simp
  · rw [if_neg he] at h
    cases hl : parseListLoop (trim s) 0 [] [] with
    | none => rw [hl] at h; cases h
    | some r =>
      rw [hl] at h
      obtain ⟨d, res⟩ := r
      obtain ⟨e, hr⟩ := parseListLoop_facts _ _ _ _ _ hl
      by_cases hd : d = 0
      · subst hd
        cases h
        exact ⟨by dsimp only at e; omega, hr (by simp)⟩
      · exfalso
        revert h
        split
        · next heq => cases heq; exact absurd rfl hd
        · intro h; cases h

theorem splitArrow_sound : ∀ {s a b : List Char}, splitArrow s = some (a, b) → s = a ++ '-' :: '>' :: b
  | [], a, b, h => by simp [splitArrow] at h
  | c :: s, a, b, h => by
    rw [splitArrow] at h
    by_cases hc : c = '-' ∧ s.head? = some '>'
    · rw [if_pos hc] at h
      cases h
      obtain ⟨rfl, hh⟩ := hc
      cases s with
      | nil => simp at hh
      | cons d s =>
        simp only [List.head?_cons, Option.some.injEq] at hh
        simp [hh]
    · rw [if_neg hc] at h
      simp only [Option.map_eq_some_iff, Prod.mk.injEq, Prod.exists] at h
      obtain ⟨a', b', h1, rfl, rfl⟩ := h
      rw [splitArrow_sound h1]; rfl

/-- C40 (partial): what is accepted has an arrow, at least one operand, as many opening as closing
parentheses on each side and no empty dimension name, so text failing any of these is rejected.
Missing: other malformed text is accepted, see `C40_parse_counterexample`. -/
theorem C40_parse_rejects_partial (s : List Char) (sig : GuSig) (h : parseSignature s = some sig) :
    ∃ a b, trim s = a ++ '-' :: '>' :: b ∧ (trim a).count '(' = (trim a).count ')' ∧
      (trim b).count '(' = (trim b).count ')' ∧ sig.inputs ≠ [] ∧
      (∀ op ∈ sig.inputs ++ sig.outputs, ∀ n ∈ op, n ≠ []) := by
  unfold parseSignature at h
  simp only [Option.bind_eq_bind, Option.bind_eq_some_iff, Prod.exists] at h
  obtain ⟨a, b, h1, i, h2, o, h3, h4⟩ := h
  by_cases hi : i.isEmpty = true
  · rw [if_pos hi] at h4; cases h4
  · rw [if_neg hi] at h4
    cases h4
    obtain ⟨c1, n1⟩ := parseCoreDimsList_facts h2
    obtain ⟨c2, n2⟩ := parseCoreDimsList_facts h3
    refine ⟨a, b, splitArrow_sound h1, c1, c2, by simpa using hi, fun op hop => ?_⟩
    rcases List.mem_append.1 hop with hop | hop
    · exact n1 op hop
    · exact n2 op hop

example : (parseSignature "(m,)->()".toList, parseSignature "(m->()".toList, parseSignature "->(m)".toList,
    parseSignature "(m)".toList) = (none, none, none, none) := by decide +kernel

/-- C40, negated: malformed signatures are accepted: operands without a comma between them, closing
before opening parentheses, and results that are no parenthesised list. -/
theorem C40_parse_counterexample :
    parseSignature "(m)(n)->()".toList = some ⟨[["m".toList], ["m)(n".toList]], [[]]⟩ ∧
    parseSignature "(n)->)(".toList = some ⟨[["n".toList]], []⟩ ∧
    parseSignature "(n)->junk".toList = some ⟨[["n".toList]], []⟩ := by
  decide +kernel

/-! ### Resolving dimensions -/

/-- C40: dimensions resolve exactly when every named dimension has one size throughout and the
loop dimensions broadcast together. -/
theorem C40_resolve_iff (sig : GuSig) (shapes : List (List Nat)) :
    (resolveDims sig shapes).isSome ↔ ∃ σ loops loop, Resolves sig shapes σ loops loop := by
  constructor
  · intro h
    obtain ⟨d, hd⟩ := Option.isSome_iff_exists.1 h
    obtain ⟨σ, loops, hr⟩ := resolves_of_some hd
    exact ⟨σ, loops, _, hr⟩
  · rintro ⟨σ, loops, loop, h⟩
    rw [resolveDims_eq h]; rfl

/-- C40: each result has the loop shape followed by its core dimensions, a dimension that no operand
binds having length 1. -/
theorem C40_resolve_shape (sig : GuSig) (shapes : List (List Nat)) (d : GuDims) (h : resolveDims sig shapes = some d)
    (σ : List Char → Nat) (loops : List (List Nat)) (loop : List Nat) (hr : Resolves sig shapes σ loops loop) :
    d.loopShape = loop ∧ d.inputLoopNdims = loops.map List.length ∧
    ∀ i names, sig.outputs[i]? = some names → d.outputShape i = loop ++ names.map (outputSize sig σ) := by
  rw [resolveDims_eq hr] at h
  cases h
  refine ⟨rfl, rfl, fun i names hi => ?_⟩
  unfold GuDims.outputShape
  dsimp only
  rw [List.getD_eq_getElem?_getD, List.getElem?_map, hi]
  rfl

example : parseSignature "(m,n),(n,p)->(m,p)".toList = some matmulSig := by decide +kernel

example : Resolves matmulSig [[5, 1, 2, 3], [4, 3, 7]] (fun d => if d = ['m'] then 2 else if d = ['n'] then 3 else 7)
    [[5, 1], [4]] [5, 4] ∧
    (resolveDims matmulSig [[5, 1, 2, 3], [4, 3, 7]]).map (·.outputShape 0) = some [5, 4, 2, 7] ∧
    resolveDims matmulSig [[2, 3], [4, 7]] = none := by
  refine ⟨⟨rfl, rfl, rfl, fun k hk => ?_⟩, by
    simp [resolveDims, matmulSig, bindInputs, bindDims, broadcastMultiShapes, broadcastShapes, broadcastShapesRev,
      List.lookup, GuDims.outputShape], by decide +kernel⟩
  simp only [List.length_cons, List.length_nil] at hk
  have : k = 0 ∨ k = 1 := by omega
  rcases this with rfl | rfl
  · exact ⟨by simp [dimR], Or.inr ⟨[4], by simp, rfl⟩⟩
  · exact ⟨by simp [dimR], Or.inr ⟨[5, 1], by simp, rfl⟩⟩

/-! ### Calls -/

/-- The operands whose loop positions the code finds: no loop axes, or as many as the result, and
loop strides that are not negative. -/
def LoopAligned (v : View) (l loop : List Nat) : Prop :=
  (l = [] ∨ l.length = loop.length) ∧ ∀ s ∈ v.strides.take l.length, 0 ≤ s

theorem isBroadcastAll_to {loops : List (List Nat)} {loop L : List Nat} (h : IsBroadcastAll loops loop) (hL : L ∈ loops) :
    BroadcastsTo L loop := by
  have hm : ∀ {xs : List (List Nat)} {x : List Nat}, x ∈ xs → x.length ≤ (xs.map List.length).foldr max 0 := by
    intro xs
    induction xs with
    | nil => simp
    | cons y ys ih =>
      intro x hx
      simp only [List.map_cons, List.foldr_cons]
      rcases List.mem_cons.1 hx with rfl | hx
      · exact Nat.le_max_left _ _
      · exact Nat.le_trans (ih hx) (Nat.le_max_right _ _)
  have := hm hL
  rw [← h.1] at this
  exact ⟨this, fun k hk => (h.2 k (by omega)).1 L hL⟩

/-- C40 (partial): a gufunc whose kernel computes `f` of the core sub-arrays gives at each loop
position `f` of the sub-arrays that broadcasting selects there, with the loop shape followed by the
core result shape as shape.  Missing: operands with fewer (but some) loop axes than the result, and
negative loop strides, see `C40_call_counterexample` and `C40_call_stride_counterexample`. -/
theorem C40_call_partial (sig : GuSig) (names : List (List Char)) (hout : sig.outputs = [names])
    (kernel : List (Held α) → View → List (Int × β)) (inputs : List (Held α)) (item : Nat) (hitem : 0 < item) (zero : β)
    (σ : List Char → Nat) (loops : List (List Nat)) (loop : List Nat)
    (hr : Resolves sig (inputs.map fun h => h.view.shape) σ loops loop)
    (hwf : ∀ h ∈ inputs, h.view.WF) (hne : ∀ ns ∈ sig.inputs, ns ≠ [])
    (hal : ∀ (i : Nat) (h : Held α) (l : List Nat), inputs[i]? = some h → loops[i]? = some l → LoopAligned h.view l loop)
    (f : List (Nd α) → List Nat → β)
    (hf : ∀ xs ys, List.Forall₂ Nd.Same xs ys → xs.map Nd.shape = sig.inputs.map (fun ns => ns.map σ) → ∀ c, InShape (names.map (outputSize sig σ)) c → f xs c = f ys c)
    (hk : ∀ (cores : List (Held α)) (w : View), cores.map (fun h => h.view.shape) = sig.inputs.map (fun ns => ns.map σ) →
      (∀ core ∈ cores, ∃ h ∈ inputs, ∀ s ∈ core.view.strides, s ∈ h.view.strides) →
      (∀ s ∈ w.strides, (item : Int) ∣ s) →
      kernel cores w = (indices (names.map (outputSize sig σ))).map fun c => (w.addr c, f (cores.map Held.nd) c)) :
    ∃ arr, gufuncCall sig kernel inputs item zero = some arr ∧
      arr.Is { shape := loop ++ names.map (outputSize sig σ),
               get := fun idx => f (List.zipWith (fun h ns => h.nd.coreAt loop (ns.map σ) (idx.take loop.length)) inputs sig.inputs)
                 (idx.drop loop.length) } := by
  have hd := resolveDims_eq hr
  obtain ⟨hlen, hshapes, hbc⟩ := hr
  -- the cores, one operand at a time
  have hcores : ∀ l, l.length = loop.length →
      (inputCores inputs (loops.map List.length) l).map (fun h => h.view.shape) = sig.inputs.map (fun ns => ns.map σ) ∧
      List.Forall₂ Nd.Same ((inputCores inputs (loops.map List.length) l).map Held.nd)
        (List.zipWith (fun h ns => h.nd.coreAt loop (ns.map σ) l) inputs sig.inputs) ∧
      ∀ core ∈ inputCores inputs (loops.map List.length) l, ∃ h ∈ inputs, ∀ s ∈ core.view.strides, s ∈ h.view.strides := by
    intro l hl
    have gen : ∀ (ins : List (Held α)) (ls : List (List Nat)) (sg : List (List (List Char))),
        ls.length = sg.length → (ins.map fun h => h.view.shape) = List.zipWith (fun l names => l ++ names.map σ) ls sg →
        (∀ h ∈ ins, h.view.WF) → (∀ ns ∈ sg, ns ≠ []) →
        (∀ (i : Nat) (h : Held α) (l : List Nat), ins[i]? = some h → ls[i]? = some l → LoopAligned h.view l loop) →
        (inputCores ins (ls.map List.length) l).map (fun h => h.view.shape) = sg.map (fun ns => ns.map σ) ∧
        List.Forall₂ Nd.Same ((inputCores ins (ls.map List.length) l).map Held.nd)
          (List.zipWith (fun h ns => h.nd.coreAt loop (ns.map σ) l) ins sg) ∧
        ∀ core ∈ inputCores ins (ls.map List.length) l, ∃ h ∈ ins, ∀ s ∈ core.view.strides, s ∈ h.view.strides := by
      intro ins
      induction ins with
      | nil =>
        intro ls sg h1 h2 _ _ _
        cases ls with
        | nil => cases sg with
          | nil => exact ⟨rfl, .nil, by simp [inputCores]⟩
          | cons => simp at h1
        | cons => cases sg with
          | nil => simp at h1
          | cons => simp at h2
      | cons h ins ih =>
        intro ls sg h1 h2 h3 h4 h5
        cases ls with
        | nil => simp at h2
        | cons L ls =>
          cases sg with
          | nil => simp at h1
          | cons ns sg =>
            simp only [List.map_cons, List.zipWith_cons_cons, List.cons.injEq] at h2
            obtain ⟨hsh, h2⟩ := h2
            obtain ⟨i1, i2, i3⟩ := ih ls sg (by simpa using h1) h2 (fun x hx => h3 x (by simp [hx]))
              (fun x hx => h4 x (by simp [hx])) (fun i x l hx hl => h5 (i + 1) x l (by simpa using hx) (by simpa using hl))
            obtain ⟨hal1, hal2⟩ := h5 0 h L rfl rfl
            have hC : ns.map σ ≠ [] := by
              have := h4 ns (by simp)
              cases ns with
              | nil => exact absurd rfl this
              | cons => simp
            obtain ⟨s1, s2, s3, s4⟩ := subarray_spec (h3 h (by simp)).len hsh hC hal1 hal2 hl
            refine ⟨?_, ?_, ?_⟩
            · simp only [inputCores, List.map_cons, List.zip_cons_cons, s1, List.cons.injEq, true_and] at i1 ⊢
              exact i1
            · simp only [inputCores, List.map_cons, List.zip_cons_cons, List.zipWith_cons_cons] at i2 ⊢
              refine .cons ⟨s1, fun c hc => ?_⟩ i2
              have hc : InShape (h.view.gufuncSubarray l L.length).shape c := hc
              rw [s1] at hc
              show h.mem _ = h.mem _
              rw [s4 c hc]
              rfl
            · intro core hcore
              simp only [inputCores, List.map_cons, List.zip_cons_cons, List.mem_cons] at hcore i3
              rcases hcore with rfl | hcore
              · refine ⟨h, by simp, fun s hs => ?_⟩
                dsimp only at hs
                rw [s2] at hs
                exact List.mem_of_mem_drop hs
              · obtain ⟨x, hx, hs⟩ := i3 core hcore
                exact ⟨x, by simp [hx], hs⟩
    exact gen inputs loops sig.inputs hlen hshapes hwf hne hal
  have := gufuncCall_eq (kernel := kernel) (inputs := inputs) (item := item) (zero := zero) hitem hd
    (val := fun l c => f ((inputCores inputs (loops.map List.length) l).map Held.nd) c) ?_
  · obtain ⟨arr, h1, h2⟩ := this
    refine ⟨arr, h1, ?_⟩
    rw [hout] at h2
    simp only [List.map_cons, List.map_nil, List.getD_cons_zero] at h2
    refine h2.congr ⟨rfl, fun idx hi => ?_⟩
    have hi : InShape (loop ++ names.map (outputSize sig σ)) idx := hi
    have hil := hi.length_eq
    have htl : (idx.take loop.length).length = loop.length := by
      rw [List.length_take, hil, List.length_append]; omega
    have hin : InShape (loop ++ names.map (outputSize sig σ)) (idx.take loop.length ++ idx.drop loop.length) := by
      rwa [List.take_append_drop]
    have hin := (inShape_append_iff htl).1 hin
    exact hf _ _ (hcores _ htl).2.1 (by rw [List.map_map]; exact (hcores _ htl).1) _ hin.2
  · intro l hl w _ hw1 hw2
    rw [hout] at hw1 hw2 ⊢
    simp only [List.map_cons, List.map_nil, List.getD_cons_zero] at hw1 hw2 ⊢
    refine hk _ _ (hcores l hl.length_eq).1 (hcores l hl.length_eq).2.2 ?_
    by_cases hcs : names.map (outputSize sig σ) = []
    · rw [hw1 hcs]
      simp
    · rw [hw2 hcs]
      exact fun s hs => cStrides_dvd _ _ _ hs

end Props
