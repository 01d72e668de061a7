import Verif.Model.HistArg
import Verif.Props.Histogram
/-!
# C121: the arguments of `histogram2d` and `histogramdd`
-/

namespace Props
open Rumpy Spec

theorem countOf_iff {n : Int} {b : Nat} : countOf n = some b ↔ IsBinCount n b := by
  unfold countOf IsBinCount
  constructor
  · intro h
    split at h
    · cases h; omega
    · cases h
  · rintro ⟨rfl, h⟩
    rw [if_pos ⟨by omega, by exact_mod_cast h⟩, Int.toNat_natCast]

theorem mapM_forall₂ {α β : Type} {f : α → Option β} {R : α → β → Prop} (h : ∀ a b, f a = some b ↔ R a b) :
    ∀ {l : List α} {q : List β}, l.mapM f = some q ↔ List.Forall₂ R l q
  | [], q => by cases q <;> simp
  | a :: l, q => by
    rw [List.mapM_cons]
    constructor
    · intro e
      cases ha : f a with
      | none => rw [ha] at e; cases e
      | some b =>
        cases hl : l.mapM f with
        | none => rw [ha, hl] at e; cases e
        | some r =>
          rw [ha, hl] at e
          cases e
          exact .cons ((h _ _).1 ha) ((mapM_forall₂ h).1 hl)
    · intro e
      cases e with
      | cons h1 h2 =>
        rw [(h _ _).2 h1, (mapM_forall₂ h).2 h2]
        rfl

theorem bins2d_iff {a : BinsArg} {b : Nat × Nat} : bins2d a = some b ↔ BinsMean 2 a [b.1, b.2] := by
  obtain ⟨x, y⟩ := b
  cases a with
  | absent =>
    show some (10, 10) = _ ↔ [x, y] = [10, 10]
    simp [eq_comm]
  | int n =>
    show (countOf n).map _ = _ ↔ ∃ b, IsBinCount n b ∧ [x, y] = [b, b]
    rw [Option.map_eq_some_iff]
    refine exists_congr fun b => and_congr countOf_iff ?_
    simp [eq_comm]
  | list l =>
    show (l.mapM countOf).bind _ = _ ↔ l.length = 2 ∧ List.Forall₂ IsBinCount l [x, y]
    rw [Option.bind_eq_some_iff]
    constructor
    · rintro ⟨q, h1, h2⟩
      have h3 := (mapM_forall₂ fun _ _ => countOf_iff).1 h1
      split at h2
      · cases h2
      · next hl =>
        match q, hl, h2, h3 with
        | [u, v], _, h2, h3 => cases h2; exact ⟨h3.length_eq, h3⟩
        | [], hl, _, _ => exact absurd (by simp) hl
        | [_], hl, _, _ => exact absurd (by simp) hl
        | _ :: _ :: _ :: _, hl, _, _ => exact absurd (by simp) hl
    · rintro ⟨-, h⟩
      exact ⟨[x, y], (mapM_forall₂ fun _ _ => countOf_iff).2 h, rfl⟩
  | other => exact Iff.intro (fun h => by cases h) (fun h => False.elim h)

theorem range2d_iff {a : Option (List (List ℚ))} {r : Option ((ℚ × ℚ) × (ℚ × ℚ))} :
    range2d a = some r ↔ RangeMeans 2 a (r.map fun p => [p.1, p.2]) := by
  cases a with
  | none => cases r <;> simp [range2d, RangeMeans]
  | some l =>
    show (if _ then _ else _) = _ ↔ l.length = 2 ∧ _
    constructor
    · intro h
      split at h
      · cases h
      · next hl =>
        match l, hl, h with
        | [[a, b], [c, d]], _, h => cases h; exact ⟨rfl, _, rfl, rfl⟩
        | [], hl, _ => exact absurd (by simp) hl
        | [_], hl, _ => exact absurd (by simp) hl
        | _ :: _ :: _ :: _, hl, _ => exact absurd (by simp) hl
        | [[], _], hl, _ => exact absurd (by simp) hl
        | [[_], _], hl, _ => exact absurd (by simp) hl
        | [_ :: _ :: _ :: _, _], hl, _ => exact absurd (by simp) hl
        | [[_, _], []], hl, _ => exact absurd (by simp) hl
        | [[_, _], [_]], hl, _ => exact absurd (by simp) hl
        | [[_, _], _ :: _ :: _ :: _], hl, _ => exact absurd (by simp) hl
    · rintro ⟨-, q, h1, rfl⟩
      cases r with
      | none => cases h1
      | some p => cases h1; rfl

theorem rangeDd_some {d : Nat} {a : Option (List (List ℚ))} {r : Option (List (ℚ × ℚ))} (h : RangeMeans d a r) : rangeDd a = some r := by
  cases a with
  | none => cases h; rfl
  | some l =>
    obtain ⟨-, q, rfl, rfl⟩ := h
    show Option.map some _ = _
    have : (q.map fun p : ℚ × ℚ => [p.1, p.2]).mapM (fun v : List ℚ => if v.length ≠ 2 then none else some (v.getD 0 0, v.getD 1 0)) = some q := by
      induction q with
      | nil => rfl
      | cons p q ih => rw [List.map_cons, List.mapM_cons, ih]; rfl
    rw [this]
    rfl

theorem binsDd_some {d : Nat} {a : BinsArg} {bins : List Nat} (h : BinsMean d a bins) : ∃ given, binsDd a = some given ∧ BinsOf given d bins := by
  cases a with
  | absent => cases h; exact ⟨[10], rfl, by simp, Or.inr ⟨10, rfl, rfl⟩⟩
  | int n =>
    obtain ⟨b, h1, rfl⟩ := h
    refine ⟨[b], ?_, by simp, Or.inr ⟨b, rfl, rfl⟩⟩
    show (countOf n).map _ = _
    rw [countOf_iff.2 h1]
    rfl
  | list l => exact ⟨bins, (mapM_forall₂ fun _ _ => countOf_iff).2 h.2, h.2.length_eq.symm.trans h.1, Or.inl rfl⟩
  | other => exact h.elim

/-- C121 (partial): whatever way the bins and the limits are written, `histogram2d` counts the points in the boxes they mean, by their `x`
along the first axis and their `y` along the second.  Missing: limits that are equal, NaN. -/
theorem C121_histogram2d_partial {vx vy : View} (hx : vx.WF) (hy : vy.WF) (mx my : Int → ℚ) (hl : size vx.shape = size vy.shape)
    {bins : BinsArg} {bx py : Nat} (hb : BinsMean 2 bins [bx, py]) (hbx : 0 < bx) (hpy : 0 < py)
    {range : Option (List (List ℚ))} {r : Option ((ℚ × ℚ) × (ℚ × ℚ))} (hr : RangeMeans 2 range (r.map fun p => [p.1, p.2])) {xlo xhi ylo yhi : ℚ}
    (hrx : HistRange (vx.denote mx).toList (r.map (·.1)) xlo xhi) (hry : HistRange (vy.denote my).toList (r.map (·.2)) ylo yhi)
    (hxl : xlo < xhi) (hyl : ylo < yhi) :
    ∃ h, pyHistogram2d mx my vx vy bins range none =
        .ok (h, (List.range (bx + 1)).map (fun i => edge xlo xhi bx i), (List.range (py + 1)).map fun j => edge ylo yhi py j) ∧
      h.Is ⟨[bx, py], fun idx => ((vx.denote mx).toList.zip (vy.denote my).toList).countP fun p =>
        InBin xlo xhi bx (idx.getD 0 0) p.1 ∧ InBin ylo yhi py (idx.getD 1 0) p.2⟩ := by
  obtain ⟨h, h1, h2, -⟩ := C49_histogram2d_partial hx hy mx my hl hbx hpy hrx hry hxl hyl false _ rfl
    (fun p => decide ((xlo ≤ p.1 ∧ p.1 ≤ xhi) ∧ ylo ≤ p.2 ∧ p.2 ≤ yhi)) (fun p => by simp) (fun h => nomatch h)
  refine ⟨h, ?_, h2⟩
  unfold pyHistogram2d
  rw [(bins2d_iff (b := (bx, py))).2 hb, range2d_iff.2 hr]
  exact h1

/-- C121: bins or limits without a meaning are refused by `histogram2d`. -/
theorem C121_histogram2d_refuses (mx my : Int → ℚ) (vx vy : View) (bins : BinsArg) (range : Option (List (List ℚ))) (density : Option Bool)
    (h : (¬ ∃ b, BinsMean 2 bins b) ∨ ¬ ∃ r, RangeMeans 2 range r) : pyHistogram2d mx my vx vy bins range density = .error := by
  unfold pyHistogram2d
  cases hb : bins2d bins with
  | none => rfl
  | some b =>
    cases hr : range2d range with
    | none => rfl
    | some r =>
      exact (h.elim (fun h => h ⟨_, bins2d_iff.1 hb⟩) fun h => h ⟨_, range2d_iff.1 hr⟩).elim

/-- C121 (partial): the same for `histogramdd` and any number of dimensions.  Missing: limits that are equal, NaN. -/
theorem C121_histogramdd_partial {v : View} (mem : Int → ℚ) {n d : Nat} (hs : v.shape = [n, d]) {arg : BinsArg} {bins : List Nat}
    (hb : BinsMean d arg bins) (hpos : ∀ b ∈ bins, 0 < b) {range : Option (List (List ℚ))} {r : Option (List (ℚ × ℚ))}
    (hr : RangeMeans d range r) (rows : List (List ℚ))
    (hrows : rows = (List.range n).map fun i => (List.range d).map fun k => (v.denote mem).get [i, k])
    {rs : List (ℚ × ℚ)} (hrs : rs.length = d)
    (hrr : ∀ k, k < d → HistRange (rows.map fun row => row.getD k 0) (r.map fun r => r.getD k (0, 0))
      (rs.getD k (0, 0)).1 (rs.getD k (0, 0)).2) (hlt : ∀ r ∈ rs, r.1 < r.2)
    (within : List ℚ → Bool) (hwi : ∀ row ∈ rows, within row = true ↔ ∃ idx, InBox row rs bins idx) :
    ∃ h, pyHistogramdd (fun a => some (mem a)) v arg range none =
        .ok (h, (List.range d).map fun k => (List.range (bins.getD k 0 + 1)).map fun i =>
          edge (rs.getD k (0, 0)).1 (rs.getD k (0, 0)).2 (bins.getD k 0) i) ∧
      h.Is ⟨bins, fun idx => rows.countP fun row => InBox row rs bins idx⟩ := by
  obtain ⟨given, g1, g2⟩ := binsDd_some hb
  obtain ⟨h, h1, h2, -⟩ := C49_histogramdd_partial mem hs g2 hpos (range := r) (by
    rintro q rfl
    cases range with
    | none => cases hr
    | some l =>
      obtain ⟨e, q', e', rfl⟩ := hr
      cases e'
      rw [← e, List.length_map]) rows hrows hrs hrr hlt false within hwi (fun h => nomatch h) _ rfl
  refine ⟨h, ?_, h2⟩
  unfold pyHistogramdd
  rw [g1, rangeDd_some hr]
  exact h1

/-- C121 (partial): bins without a meaning are refused by `histogramdd`.  Missing: a list of one number for several dimensions
(`C121_counterexample`). -/
theorem C121_histogramdd_refuses_partial (mem : Int → Option ℚ) {v : View} {n d : Nat} (hs : v.shape = [n, d]) {arg : BinsArg}
    (h : ¬ ∃ b, BinsMean d arg b) (h1 : ∀ m, arg ≠ .list [m]) (range : Option (List (List ℚ))) (density : Option Bool) :
    pyHistogramdd mem v arg range density = .error := by
  unfold pyHistogramdd
  cases hb : binsDd arg with
  | none => rfl
  | some given =>
    cases hr : rangeDd range with
    | none => rfl
    | some r =>
      have key : given.length ≠ 1 ∧ given.length ≠ d := by
        cases arg with
        | absent => exact absurd ⟨_, rfl⟩ h
        | int m =>
          obtain ⟨b, hb, -⟩ := Option.map_eq_some_iff.1 (show (countOf m).map _ = _ from hb)
          exact absurd ⟨_, b, countOf_iff.1 hb, rfl⟩ h
        | list l =>
          have h3 := (mapM_forall₂ fun _ _ => countOf_iff).1 (show l.mapM countOf = _ from hb)
          refine ⟨fun e => ?_, fun e => h ⟨given, h3.length_eq.trans e, h3⟩⟩
          obtain ⟨m, rfl⟩ := List.length_eq_one_iff.1 (h3.length_eq.trans e)
          exact h1 m rfl
        | other => cases hb
      have of : ∀ s r', histogramddOf s d given r' (density.getD false) = .error := by
        intro s r'
        unfold histogramddOf
        simp only [if_neg key.1]
        rw [if_pos key.2]
      show histogramdd mem v given r _ = _
      unfold histogramdd
      rw [hs]
      simp [of]

/-- C121: `histogramdd` refuses limits that are not two numbers. -/
theorem C121_histogramdd_limits (mem : Int → Option ℚ) (v : View) (arg : BinsArg) {l : List (List ℚ)} {p : List ℚ} (hp : p ∈ l)
    (h2 : p.length ≠ 2) (density : Option Bool) : pyHistogramdd mem v arg (some l) density = .error := by
  have hr : rangeDd (some l) = none := by
    show Option.map some _ = none
    rw [Option.map_eq_none_iff]
    induction l with
    | nil => cases hp
    | cons a l ih =>
      rw [List.mapM_cons]
      rcases List.mem_cons.1 hp with rfl | h
      · rw [if_pos h2]; rfl
      · rw [ih h]
        by_cases ha : a.length ≠ 2
        · rw [if_pos ha]; rfl
        · rw [if_neg ha]; rfl
  unfold pyHistogramdd
  rw [hr]
  cases binsDd arg <;> rfl

/-- Three points; bins written as a number, as a list and left out. -/
example : pyHistogram2d (fun a => [(1 : ℚ), 2, 3].getD (a / 8).toNat 0) (fun a => [(1 : ℚ), 5, 5].getD (a / 8).toNat 0)
      (View.fresh [3] 8) (View.fresh [3] 8) (.list [2, 1]) (some [[0, 4], [0, 8]]) none = .ok (⟨[2, 1], [1, 2]⟩, [0, 2, 4], [0, 8]) ∧
    BinsMean 2 (.list [2, 1]) [2, 1] ∧ RangeMeans 2 (some [[0, 4], [0, 8]]) (some [(0, 4), (0, 8)]) ∧
    (¬ ∃ b, BinsMean 2 (.int (-1)) b) ∧ ¬ ∃ b, BinsMean 2 (.list [1, 2, 3]) b := by
  refine ⟨by decide +kernel, ⟨rfl, .cons ⟨rfl, by norm_num⟩ (.cons ⟨rfl, by norm_num⟩ .nil)⟩, ⟨rfl, _, rfl, rfl⟩, ?_, ?_⟩
  · rintro ⟨b, n, ⟨h, -⟩, -⟩
    omega
  · rintro ⟨b, h, -⟩
    cases h

/-- A sample of three points in the plane. -/
example : pyHistogramdd (fun a => some ([(1 : ℚ), 1, 2, 5, 3, 5].getD (a / 8).toNat 0)) (View.fresh [3, 2] 8) (.int 2) none none =
      .ok (⟨[2, 2], [1, 0, 0, 2]⟩, [[1, 2, 3], [1, 3, 5]]) ∧ BinsMean 2 (.int 2) [2, 2] ∧
    pyHistogramdd (fun _ => some 0) (View.fresh [3, 2] 8) .absent (some [[0, 1], [0]]) none = .error :=
  ⟨by decide +kernel, ⟨2, ⟨rfl, by norm_num⟩, rfl⟩, C121_histogramdd_limits _ _ _ (p := [0]) (by simp) (by simp) _⟩

/-- C121 fails for `histogramdd`: a list of one number is taken for every dimension, limits for more dimensions than there are are taken,
and limits for fewer make it panic. -/
theorem C121_counterexample :
    (∃ h e, pyHistogramdd (fun _ => some 0) (View.fresh [1, 2] 8) (.list [3]) (some [[0, 1], [0, 1]]) none = .ok (h, e)) ∧
    (¬ ∃ b, BinsMean 2 (.list [3]) b) ∧
    (∃ h e, pyHistogramdd (fun _ => some 0) (View.fresh [1, 1] 8) .absent (some [[0, 1], [0, 1]]) none = .ok (h, e)) ∧
    (¬ ∃ r, RangeMeans 1 (some [[0, 1], [0, 1]]) r) ∧
    pyHistogramdd (fun _ => some 0) (View.fresh [1, 2] 8) .absent (some [[0, 1]]) none = .panic := by
  refine ⟨⟨⟨[3, 3], [1, 0, 0, 0, 0, 0, 0, 0, 0]⟩, [[0, 1 / 3, 2 / 3, 1], [0, 1 / 3, 2 / 3, 1]], by decide +kernel⟩, ?_,
    ⟨⟨[10], [1, 0, 0, 0, 0, 0, 0, 0, 0, 0]⟩, [[0, 1 / 10, 1 / 5, 3 / 10, 2 / 5, 1 / 2, 3 / 5, 7 / 10, 4 / 5, 9 / 10, 1]], by decide +kernel⟩, ?_,
    by decide +kernel⟩
  · rintro ⟨b, h, -⟩
    cases h
  · rintro ⟨r, h, -⟩
    cases h

end Props
