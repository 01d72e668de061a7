import Verif.Lemmas.Alias
import Verif.Lemmas.Masked
import Verif.Model.FloatPower
import Verif.Props.MixedCompare
/-!
# Lemmas: `float_power`
-/

namespace Rumpy
open Spec Props

/-! ### The loops -/

/-- The elements of an operand after `ensure_contiguous`, read one after the other. -/
theorem ensureContiguous_get (d : DType) (mem : Int → Elem) {v : View} (hw : v.WF) (hal : AlignedAs d v) (hsz : 0 < DType.itemsize d)
    {out i : List Nat} (hs : v.shape = out) (hi : InShape out i) :
    (ensureContiguous d mem v out).mem ((ensureContiguous d mem v out).view.offset + (rank out i : Nat) * ((ensureContiguous d mem v out).view.item : Int))
      = mem (v.addr i) := by
  subst hs
  unfold ensureContiguous
  by_cases hc : v.cFlag = true
  · rw [if_pos (by rw [hc]; simp)]
    rw [cFlag_addr hw hc hi]
  · rw [if_neg (by simp [hc])]
    have his := C70_elementwise d d ⟨mem, v⟩ hw (fun _ => hal)
    have hd := his.denote hsz (zeroElem d)
    have e := hd.2 i (by rw [hd.1]; exact hi)
    have hw' : (recast d d ⟨mem, v⟩).view.WF := held_of_wf _ _ _
    have hsh : (recast d d ⟨mem, v⟩).view.shape = v.shape := his.1
    have ha := cFlag_addr hw' rfl (idx := i) (by rw [hsh]; exact hi)
    rw [hsh] at ha
    rw [← ha]
    refine Eq.trans e ?_
    show castElem d d _ = _
    rw [castElem_self]
    rfl

theorem powLoop_is (lib : PowLib) (d r : DType) (memA memB : Int → Elem) {x y : View} (hx : x.WF) (hy : y.WF) (ax : AlignedAs d x) (ay : AlignedAs d y)
    (hsz : 0 < DType.itemsize d) {out : List Nat} (sx : x.shape = out) (sy : y.shape = out) :
    (powLoop lib d r memA memB x y out).Is ⟨out, fun i => powElem lib (memA (x.addr i)) (memB (y.addr i))⟩ := by
  unfold powLoop
  dsimp only
  rw [sizeOf_eq]
  by_cases h0 : size out = 0
  · rw [if_pos h0]
    refine ⟨rfl, ?_⟩
    dsimp only
    rw [h0]
    exact (List.eq_nil_of_length_eq_zero (by rw [Nd.length_toList]; exact h0)).symm
  · rw [if_neg h0]
    refine ⟨rfl, ?_⟩
    dsimp only
    rw [writes_range _ _ _ (List.length_replicate ..)]
    refine eq_toList (by simp) fun i hi => ?_
    have hlt := rank_lt hi
    dsimp only at hi hlt ⊢
    rw [List.getElem?_map, List.getElem?_range hlt]
    show some (powElem lib _ _) = _
    rw [ensureContiguous_get d memA hx ax hsz sx hi, ensureContiguous_get d memB hy ay hsz sy hi]

theorem aligned_broadcast {d : DType} {v v' : View} {t : List Nat} (h : v.broadcastTo t = some v') (ha : AlignedAs d v) : AlignedAs d v' := by
  have hi : v'.item = v.item := by
    unfold View.broadcastTo at h
    split at h
    · cases h
    · dsimp only at h
      split at h
      · cases h
      · cases h
        rfl
  refine ⟨hi.trans ha.1, ?_⟩
  rw [hi]
  exact broadcastTo_dvd h ha.2

theorem aligned_operand {a d : DType} {h : Held Elem} (ha : AlignedAs a h.view) :
    AlignedAs d (if a ≠ d then recast a d h else h).view := by
  by_cases he : a = d
  · rw [if_neg (not_not.2 he)]
    subst he
    exact ha
  · rw [if_pos he]
    exact ⟨rfl, cStrides_dvd _ _⟩

/-- `float_power` of two arrays, element by element. -/
theorem floatPower_is (lib : PowLib) {a b : DType} {h g : Held Elem} (hw : h.view.WF) (gw : g.view.WF) (ha : AlignedAs a h.view)
    (gb : AlignedAs b g.view) (hsz : 0 < DType.itemsize (promote a b)) {r : DType} {t : Bool} (hk : powKind (promote a b) = some (r, t)) :
    (floatPowerArrays lib a b h g ≠ .error ↔ ∃ out, IsBroadcast h.view.shape g.view.shape out) ∧
    ∀ out, IsBroadcast h.view.shape g.view.shape out → ∃ q, floatPowerArrays lib a b h g = .ok (r, q) ∧
      q.Is ⟨out, fun i => powElem lib (castElem a (promote a b) ((h.nd.broadcast out).get i))
        (castElem b (promote a b) ((g.nd.broadcast out).get i))⟩ := by
  obtain ⟨w1, s1, e1⟩ := operand_get a (promote a b) hw (fun _ _ => ha) hsz
  obtain ⟨w2, s2, e2⟩ := operand_get b (promote a b) gw (fun _ _ => gb) hsz
  have a1 := aligned_operand (d := promote a b) ha
  have a2 := aligned_operand (d := promote a b) gb
  have main : ∀ out, IsBroadcast h.view.shape g.view.shape out → ∃ q, floatPowerArrays lib a b h g = .ok (r, q) ∧
      q.Is ⟨out, fun i => powElem lib (castElem a (promote a b) ((h.nd.broadcast out).get i))
        (castElem b (promote a b) ((g.nd.broadcast out).get i))⟩ := by
    intro out ho
    obtain ⟨b1, b2⟩ := broadcastsTo_of ho
    unfold floatPowerArrays
    rw [broadcastShapes_iff.2 ho]
    dsimp only
    generalize (if a ≠ promote a b then recast a (promote a b) h else h) = h' at *
    generalize (if b ≠ promote a b then recast b (promote a b) g else g) = g' at *
    obtain ⟨x, hx⟩ := Option.isSome_iff_exists.1 ((C09_broadcast_to_succeeds_iff h'.view w1 out).2 (by rw [s1]; exact b1))
    obtain ⟨y, hy⟩ := Option.isSome_iff_exists.1 ((C09_broadcast_to_succeeds_iff g'.view w2 out).2 (by rw [s2]; exact b2))
    obtain ⟨x1, x2, -, -⟩ := broadcastTo_addr w1 hx
    obtain ⟨y1, y2, -, -⟩ := broadcastTo_addr w2 hy
    rw [hx, hy, hk]
    have get : ∀ i, InShape out i → powElem lib (h'.mem (x.addr i)) (g'.mem (y.addr i)) =
        powElem lib (castElem a (promote a b) ((h.nd.broadcast out).get i)) (castElem b (promote a b) ((g.nd.broadcast out).get i)) := by
      intro i hi
      rw [denote_broadcast h'.mem w1 hx hi, denote_broadcast g'.mem w2 hy hi]
      rw [← e1 out b1 i hi, ← e2 out b2 i hi]
      rfl
    cases t with
    | true =>
      refine ⟨_, rfl, ?_⟩
      rw [mapBinary_eq _ _ _ x1 y1 x2 y2]
      exact ⟨rfl, List.map_congr_left fun i hi => get i (mem_indices.1 hi)⟩
    | false =>
      refine ⟨_, rfl, ?_⟩
      have := powLoop_is lib (promote a b) r h'.mem g'.mem x1 y1 (aligned_broadcast hx a1) (aligned_broadcast hy a2) hsz x2 y2
      exact ⟨this.1, this.2.trans (List.map_congr_left fun i hi => get i (mem_indices.1 hi))⟩
  refine ⟨⟨fun hne => ?_, fun ⟨out, ho⟩ => ?_⟩, main⟩
  · by_contra hcon
    apply hne
    unfold floatPowerArrays
    cases hb : broadcastShapes h.view.shape g.view.shape with
    | none => rfl
    | some out => exact absurd ⟨out, broadcastShapes_iff.1 hb⟩ hcon
  · obtain ⟨q, hq, -⟩ := main out ho
    rw [hq]
    exact fun h => nomatch h

/-! ### The operands of one element -/

/-- A real element read as a double: rounded to the nearest. -/
theorem readF64_double {a : DType} (ha : a.Real) {x : Elem} (hx : x.OfType a) :
    ∃ u u', x.parts = some (u, .num 0) ∧ readF64 x = some u' ∧ IsDouble u u' := by
  have exactly : ∀ u, x.parts = some (u, .num 0) → readF64 x = some u → fitsTable a .f64 = true → ∃ u u', x.parts = some (u, .num 0) ∧ readF64 x = some u' ∧ IsDouble u u' := by
    intro u h1 h2 h3
    have := isFlt_of_fits ha (r := .f64) rfl h3 rfl hx h1
    refine ⟨u, u, h1, h2, isRounding_self this, fun h => h⟩
  cases x with
  | bool c =>
    cases a <;> first | exact hx.elim | exact exactly _ rfl rfl (by decide +kernel)
  | int n =>
    have hn : n.natAbs < 2 ^ 65 := by
      cases a <;> first | exact ha.elim | exact hx.elim | skip
      all_goals
        obtain ⟨l, g, h0, h1, h2⟩ := hx
        first
          | (cases h0; done)
          | (cases h0; omega)
    have hr := intToF64_round hn
    refine ⟨_, _, rfl, rfl, ?_, fun _ => ⟨_, rfl⟩⟩
    have := toFormat_rounding (p := 53) (lo := -1074) (hi := 971) (by norm_num) (by norm_num) (.num (n : ℚ))
    rw [show toFormat 53 (-1074) 971 (.num (n : ℚ)) = .num ((intToF64 n : Int) : ℚ) from hr] at this
    exact this
  | flt u =>
    cases a <;> first | exact hx.elim | exact exactly _ rfl rfl (by decide +kernel) | skip
    all_goals
      obtain ⟨l, g, h0, _⟩ := hx
      cases h0
  | cpx u v => cases a <;> first | exact ha.elim | exact hx.elim
  | text t => cases a <;> first | exact ha.elim | exact hx.elim

/-- An operand converted to the common dtype and then to a double. -/
theorem operand_double {a r : DType} (ha : a.Real) (hc : isIntegerKind r = true ∧ fitsTable a r = true ∨
      DType.isFloat r = true ∧ (fitsTable a r = true ∨ (a = .i64 ∨ a = .u64) ∧ r = .f64)) {x : Elem} (hx : x.OfType a) :
    ∃ u u', x.parts = some (u, .num 0) ∧ readF64 (castElem a r x) = some u' ∧ IsDouble u u' := by
  obtain ⟨u, u', h1, h2, h3⟩ := readF64_double ha hx
  rcases hc with ⟨hri, hf⟩ | ⟨hfl, hf⟩
  · obtain ⟨n, p1, c1⟩ := cast_common_int ha hri hf hx
    have hn : n.natAbs < 2 ^ 65 := by
      cases x with
      | bool c =>
        have : ((if c then (1 : ℚ) else 0)) = (n : ℚ) := by
          have := p1
          simp only [Elem.parts, Option.some.injEq, Prod.mk.injEq, Flt.num.injEq, and_true] at this
          exact this
        cases c
        · have : n = 0 := by exact_mod_cast this.symm
          subst this; decide
        · have : n = 1 := by exact_mod_cast this.symm
          subst this; decide
      | int m =>
        have : (m : ℚ) = (n : ℚ) := by
          have := p1
          simp only [Elem.parts, Option.some.injEq, Prod.mk.injEq, Flt.num.injEq, and_true] at this
          exact this
        have : m = n := by exact_mod_cast this
        subst this
        cases a <;> first | exact ha.elim | exact hx.elim | skip
        all_goals
          obtain ⟨l, g, h0, h1, h2⟩ := hx
          first
            | (cases h0; done)
            | (cases h0; omega)
      | flt q =>
        cases a <;> cases r <;> first | exact ha.elim | exact hx.elim | (cases hri; done) | exact absurd hf (by decide)
      | cpx q w => cases a <;> first | exact ha.elim | exact hx.elim
      | text t => cases a <;> first | exact ha.elim | exact hx.elim
    refine ⟨_, .num (intToF64 n), p1, by rw [c1]; rfl, ?_, fun _ => ⟨_, rfl⟩⟩
    have := toFormat_rounding (p := 53) (lo := -1074) (hi := 971) (by norm_num) (by norm_num) (.num (n : ℚ))
    rw [show toFormat 53 (-1074) 971 (.num (n : ℚ)) = .num ((intToF64 n : Int) : ℚ) from intToF64_round hn] at this
    exact this
  · obtain ⟨p, lo, hi, hfm⟩ : ∃ p lo hi, r.format = some (p, lo, hi) := by
      rcases isFloat_cases hfl with h | h | h <;> rw [h] <;> exact ⟨_, _, _, rfl⟩
    have hcast := cast_common_float ha hfl hfm hf hx h1
    refine ⟨u, toFormat p lo hi u, h1, by rw [hcast]; rfl, ?_⟩
    rcases hf with hf | ⟨h64, rfl⟩
    · have hisf := isFlt_of_fits ha hfl hf hfm hx h1
      have e : toFormat p lo hi u = u := by
        cases u <;> first | rfl | exact roundBin_exact hisf
      rw [e]
      have key : ∀ a ∈ realTypes, ∀ r ∈ realTypes, DType.isFloat r = true → fitsTable a r = true → fitsTable a .f64 = true := by decide +kernel
      have hr : r.Real := by rcases isFloat_cases hfl with h | h | h <;> rw [h] <;> trivial
      have h53 := isFlt_of_fits ha (r := .f64) rfl (key a (mem_realTypes ha) r (mem_realTypes hr) hfl hf) rfl hx h1
      exact ⟨isRounding_self h53, fun h => h⟩
    · cases hfm
      refine ⟨toFormat_rounding (by norm_num) (by norm_num) u, ?_⟩
      rintro ⟨q, rfl⟩
      have : ∃ n : Int, x = .int n ∧ n.natAbs < 2 ^ 65 := by
        rcases h64 with rfl | rfl
        all_goals
          cases x <;> first | exact hx.elim | skip
          obtain ⟨l, g, hr, h1, h2⟩ := hx
          cases hr
          exact ⟨_, rfl, by omega⟩
      obtain ⟨n, rfl, hn⟩ := this
      cases h1
      exact ⟨_, intToF64_round hn⟩

theorem powElem_real (lib : PowLib) {x y : Elem} {u v : Flt ℚ} (hx : readF64 x = some u) (hy : readF64 y = some v) :
    powElem lib x y = .flt (lib.real u v) := by
  cases x <;> cases y <;> first | (cases hx; done) | (cases hy; done) | (cases hx; cases hy; rfl)

/-- A complex operand, or a real one converted to the common complex dtype. -/
theorem operand_complex {a r : DType} (hr : r = .c64 ∨ r = .c128) (hc : a = r ∨ a.Real ∧ (r = .c64 → fitsTable a .f32 = true)) {x : Elem}
    (hx : x.OfType a) :
    ∃ u v u' v', x.parts = some (u, v) ∧ castElem a r x = .cpx u' v' ∧ IsDouble u u' ∧ IsDouble v v' := by
  have zero : IsDouble (.num 0) (.num 0) := ⟨isRounding_self (u := .num 0) (show IsFloat 53 (-1074) 971 0 from Props.isFloat_zero (by norm_num)), fun h => h⟩
  rcases hc with rfl | ⟨ha, hf⟩
  · rw [castElem_self]
    have wide : ∀ {u : Flt ℚ}, IsFlt 24 (-149) 104 u → IsDouble u u := by
      intro u hu
      have := isFlt_of_fits (a := .f32) trivial (r := .f64) rfl (by decide +kernel) rfl (x := .flt u) hu rfl
      exact ⟨isRounding_self this, fun h => h⟩
    have same : ∀ {u : Flt ℚ}, IsFlt 53 (-1074) 971 u → IsDouble u u := fun hu => ⟨isRounding_self hu, fun h => h⟩
    rcases hr with rfl | rfl
    all_goals
      cases x <;> first | exact hx.elim | (obtain ⟨_, _, h, _⟩ := hx; cases h; done) | skip
      first
        | exact ⟨_, _, _, _, rfl, rfl, wide hx.1, wide hx.2⟩
        | exact ⟨_, _, _, _, rfl, rfl, same hx.1, same hx.2⟩
  · have hne : a ≠ r := by
      rintro rfl
      rcases hr with rfl | rfl <;> exact ha
    obtain ⟨u, u', h1, h2, h3⟩ := readF64_double ha hx
    rw [castElem_real ha hne, h2]
    rcases hr with rfl | rfl
    · have h32 := hf rfl
      have hsmall : ∀ n, x = .int n → n.natAbs ≤ 2 ^ 53 := by
        rintro n rfl
        cases a <;> first | exact ha.elim | exact hx.elim | exact absurd h32 (by decide) | skip
        all_goals
          obtain ⟨l, g, h0, h1, h2⟩ := hx
          first
            | (cases h0; done)
            | (cases h0; omega)
      obtain ⟨w, g1, g2, g3⟩ := readF64_real ha hx hsmall
      rw [h1] at g2
      cases g2
      rw [h2] at g1
      cases g1
      have hisf := isFlt_of_fits ha (r := .f32) rfl h32 rfl hx h1
      have e : toFormat 24 (-149) 104 u = u := by
        cases u <;> first | rfl | exact roundBin_exact hisf
      refine ⟨u, .num 0, u, .num 0, h1, ?_, h3, zero⟩
      show Elem.cpx (toFormat 24 (-149) 104 u) (.num 0) = _
      rw [e]
    · exact ⟨u, .num 0, u', .num 0, h1, rfl, h3, zero⟩

end Rumpy
