import Verif.Model.MixedCompare
import Verif.Props.Arith
import Verif.Props.Compare
/-!
# Lemmas: comparisons of arrays of different dtypes
-/

namespace Rumpy
open Spec Props

theorem castElem_self (a : DType) (x : Elem) : castElem a a x = x := by
  unfold castElem
  rw [if_pos rfl]

/-- An operand after the conversion. -/
theorem operand_get (a d : DType) {h : Held Elem} (hw : h.view.WF) (hal : a ≠ d → bothTime a d = true → AlignedAs a h.view)
    (hsz : 0 < DType.itemsize d) :
    let k := if a ≠ d then recast a d h else h
    k.view.WF ∧ k.view.shape = h.view.shape ∧
      ∀ s, BroadcastsTo h.view.shape s → ∀ i, InShape s i → (k.nd.broadcast s).get i = castElem a d ((h.nd.broadcast s).get i) := by
  intro k
  by_cases he : a = d
  · have hk : k = h := if_neg (not_not.2 he)
    rw [hk]
    refine ⟨hw, rfl, fun s _ i _ => ?_⟩
    rw [he, castElem_self]
  · have hk : k = recast a d h := if_pos he
    rw [hk]
    have his := C70_elementwise a d h hw (by
      rintro (h1 | h1)
      · exact absurd h1 he
      · exact hal he h1)
    have hs : (recast a d h).view.shape = h.view.shape := his.1
    refine ⟨held_of_wf _ _ _, hs, fun s hb i hi => ?_⟩
    have hd := his.denote hsz (zeroElem d)
    have hin := inShape_broadcast hb hi
    show (recast a d h).nd.get _ = castElem a d (h.nd.get _)
    have e : (recast a d h).nd.shape = h.nd.shape := hs
    rw [e]
    exact hd.2 _ (by
      show InShape (recast a d h).view.shape _
      rw [hs]
      exact hin)

theorem compareArrays_is (op : Cmp) (a b : DType) {h g : Held Elem} (hw : h.view.WF) (gw : g.view.WF)
    (hal : a ≠ promote a b → bothTime a (promote a b) = true → AlignedAs a h.view)
    (gal : b ≠ promote a b → bothTime b (promote a b) = true → AlignedAs b g.view) (hsz : 0 < DType.itemsize (promote a b)) :
    ((compareArrays op a b h g).isSome ↔ ∃ out, IsBroadcast h.view.shape g.view.shape out) ∧
    ∀ out, IsBroadcast h.view.shape g.view.shape out → ∃ r, compareArrays op a b h g = some r ∧
      r.Is ⟨out, fun i => cmpElem (promote a b) op (castElem a (promote a b) ((h.nd.broadcast out).get i))
        (castElem b (promote a b) ((g.nd.broadcast out).get i))⟩ := by
  obtain ⟨w1, s1, e1⟩ := operand_get a (promote a b) hw hal hsz
  obtain ⟨w2, s2, e2⟩ := operand_get b (promote a b) gw gal hsz
  generalize hh : (if a ≠ promote a b then recast a (promote a b) h else h) = h' at w1 s1 e1
  generalize hg : (if b ≠ promote a b then recast b (promote a b) g else g) = g' at w2 s2 e2
  have h1 : compareArrays op a b h g =
      binaryOp (!lacksCompare (promote a b)) (cmpElem (promote a b) op) h'.mem g'.mem h'.view g'.view false := by
    unfold compareArrays binaryOp
    rw [s1, s2]
    dsimp only
    rw [hh, hg]
    cases lacksCompare (promote a b) <;> rfl
  have hiff := C15_binary_succeeds_iff (!lacksCompare (promote a b)) (cmpElem (promote a b) op) h'.mem g'.mem h'.view g'.view w1 w2 false
  rw [h1]
  rw [s1, s2] at hiff
  refine ⟨hiff, fun out ho => ?_⟩
  obtain ⟨r, hr⟩ := Option.isSome_iff_exists.1 (hiff.2 ⟨out, ho⟩)
  refine ⟨r, hr, ?_⟩
  have his := C15_binary (!lacksCompare (promote a b)) (cmpElem (promote a b) op) h'.mem g'.mem h'.view g'.view w1 w2 false r out
    (by rw [s1, s2]; exact ho) hr
  obtain ⟨b1, b2⟩ := broadcastsTo_of ho
  obtain ⟨q1, q2, q3⟩ := Arr.is_iff.1 his
  refine Arr.is_iff.2 ⟨q1, q2, fun i hi => ?_⟩
  have := q3 i hi
  have t1 : (((h'.view.denote h'.mem).broadcast out).get i) = _ := e1 out b1 i hi
  have t2 : (((g'.view.denote g'.mem).broadcast out).get i) = _ := e2 out b2 i hi
  simp only [t1, t2] at this
  exact this

theorem cmpWhole_iff (op : Cmp) (x y : Int) : cmpWhole op x y = true ↔ op.Holds x y := by
  cases op <;> simp [cmpWhole, Cmp.Holds]

theorem holdsFlt_num [LinearOrder K] (op : Cmp) (x y : K) : op.HoldsFlt (.num x) (.num y) ↔ op.Holds x y := by
  cases op <;> simp [Cmp.HoldsFlt, Flt.place, Cmp.Holds]

theorem holds_cast (op : Cmp) (x y : Int) : op.Holds (x : ℚ) (y : ℚ) ↔ op.Holds x y := by
  cases op <;> simp [Cmp.Holds]

/-! ### The common dtype -/

/-- Elements in a common float dtype: rounded to its format. -/
theorem cast_common_float {a r : DType} (ha : a.Real) (hfl : DType.isFloat r = true) {p : Nat} {lo hi : Int} (hfm : r.format = some (p, lo, hi))
    (hacc : fitsTable a r = true ∨ (a = .i64 ∨ a = .u64) ∧ r = .f64) {x : Elem} (hx : x.OfType a) {u v : Flt ℚ} (hu : x.parts = some (u, v)) :
    castElem a r x = .flt (toFormat p lo hi u) := by
  rcases hacc with hf | ⟨h64, rfl⟩
  · have hisf := isFlt_of_fits ha hfl hf hfm hx hu
    have e : toFormat p lo hi u = u := by
      cases u <;> first | rfl | exact roundBin_exact hisf
    rw [e]
    by_cases hne : a = r
    · subst hne
      rw [castElem_self]
      cases a <;> first | (cases hfl; done) | skip
      all_goals cases x <;> first | exact hx.elim | (cases hu; rfl) | skip
      all_goals
        obtain ⟨l, g, h0, _⟩ := hx
        cases h0
    · rw [castElem_real ha hne]
      have hsmall : ∀ n, x = .int n → n.natAbs ≤ 2 ^ 53 := by
        rintro n rfl
        rcases isFloat_cases hfl with rfl | rfl | rfl <;> cases a <;>
          first | exact ha.elim | exact hx.elim | exact absurd hf (by decide) | skip
        all_goals
          obtain ⟨l, g, h0, h1, h2⟩ := hx
          first
            | (cases h0; done)
            | (cases h0; omega)
      obtain ⟨u', h1, h2, h3⟩ := readF64_real ha hx hsmall
      rw [hu] at h2
      cases h2
      rw [h1]
      exact isFlt_writeF64 hfl hfm hisf
  · cases hfm
    have hne : a ≠ .f64 := by rcases h64 with rfl | rfl <;> decide
    have hxi : ∃ n : Int, x = .int n ∧ n.natAbs < 2 ^ 65 := by
      rcases h64 with rfl | rfl
      all_goals
        cases x <;> first | exact hx.elim | skip
        obtain ⟨l, g, hr, h1, h2⟩ := hx
        cases hr
        exact ⟨_, rfl, by omega⟩
    obtain ⟨n, rfl, hn⟩ := hxi
    cases hu
    rw [castElem_real ha hne]
    show Elem.flt _ = Elem.flt (roundBin 53 (-1074) 971 _)
    rw [intToF64_round hn]
    rfl

/-- Elements in a common integer dtype: unchanged. -/
theorem cast_common_int {a r : DType} (ha : a.Real) (hri : isIntegerKind r = true) (hf : fitsTable a r = true) {x : Elem} (hx : x.OfType a) :
    ∃ n : Int, x.parts = some (.num n, .num 0) ∧ castElem a r x = .int n := by
  by_cases hne : a = r
  · subst hne
    rw [castElem_self]
    obtain ⟨lo, hi, hr, _⟩ := int_kind hri
    obtain ⟨n, rfl, _⟩ := ofType_int hri hx hr
    exact ⟨n, rfl, rfl⟩
  · rw [castElem_real ha hne]
    obtain ⟨lo, hi, hr, _⟩ := int_kind hri
    have key : ∃ n : Int, x.parts = some (.num n, .num 0) ∧ n.natAbs ≤ 2 ^ 53 ∧ x.whole = some n ∧ lo ≤ n ∧ n ≤ hi := by
      cases x with
      | bool c =>
        refine ⟨if c then 1 else 0, ?_, ?_, ?_, ?_⟩
        · cases c <;> simp [Elem.parts]
        · cases c <;> decide
        · cases c <;> rfl
        · cases r <;> first | (cases hri; done) | (cases hr; cases c <;> decide)
      | int n =>
        refine ⟨n, rfl, ?_, rfl, ?_⟩
        · cases a <;> cases r <;> first | exact ha.elim | exact hx.elim | (cases hri; done) | exact absurd rfl hne | exact absurd hf (by decide) | skip
          all_goals
            obtain ⟨l, g, h0, h1, h2⟩ := hx
            first
              | (cases h0; done)
              | (cases h0; omega)
        · cases a <;> cases r <;> first | exact ha.elim | exact hx.elim | (cases hri; done) | exact absurd rfl hne | exact absurd hf (by decide) | skip
          all_goals
            obtain ⟨l, g, h0, h1, h2⟩ := hx
            first
              | (cases h0; done)
              | (cases h0; cases hr; omega)
      | flt q =>
        cases a <;> cases r <;> first | exact ha.elim | exact hx.elim | (cases hri; done) | exact absurd hf (by decide)
      | cpx q w => cases a <;> first | exact ha.elim | exact hx.elim
      | text t => cases a <;> first | exact ha.elim | exact hx.elim
    obtain ⟨n, h1, h2, h3, h4, h5⟩ := key
    refine ⟨n, h1, ?_⟩
    rw [readF64_whole h3 h2]
    exact writeF64_whole hri hr h4 h5

/-- The common dtype of two real dtypes. -/
theorem common_table : ∀ a ∈ realTypes, ∀ b ∈ realTypes,
    ((promote a b = .bool ∧ a = .bool ∧ b = .bool) ∨
      (isIntegerKind (promote a b) = true ∧ fitsTable a (promote a b) = true ∧ fitsTable b (promote a b) = true) ∨
      (DType.isFloat (promote a b) = true ∧ (fitsTable a (promote a b) = true ∨ (a = .i64 ∨ a = .u64) ∧ promote a b = .f64) ∧
        (fitsTable b (promote a b) = true ∨ (b = .i64 ∨ b = .u64) ∧ promote a b = .f64))) ∧
    (promote a b).Real ∧ bothTime a (promote a b) = false ∧ bothTime b (promote a b) = false := by
  decide +kernel

end Rumpy
