import Verif.Lemmas.Fft
import Verif.Props.Edit
import Mathlib.RingTheory.RootsOfUnity.Complex
import Mathlib.Tactic.FieldSimp
/-!
# C55: frequency shifts.  C63: Fourier transforms and their inverses

The transforms are proved for exact arithmetic in any field of characteristic zero with the needed
roots of unity, in particular the complex numbers (`exact_complex`); rounding is not modelled.
-/

namespace Props
open Spec Rumpy

/-! ### C55 -/

theorem shiftArray_rolled (mem : Int → α) (v : View) (sh : Nat → Nat) (hsh : ∀ n, sh n ≤ n) (zero : α) :
    ∃ nd, (shiftArray mem v (v.shape.map sh) zero).Is nd ∧
      IsRolledAll (v.denote mem) nd fun x => sh (v.shape.getD x 0) := by
  refine ⟨⟨v.shape, fun j => (v.denote mem).get (((j.zip (v.shape.map sh)).zip v.shape).map fun p => (p.1.1 + p.2 - p.1.2) % p.2)⟩,
    ⟨rfl, ?_⟩, rfl, ?_⟩
  · show writes _ _ = _
    exact writes_odometer v.shape (fun j => mem (v.addr (((j.zip (v.shape.map sh)).zip v.shape).map fun p => (p.1.1 + p.2 - p.1.2) % p.2)))
      (List.replicate (Rumpy.sizeOf v.shape) zero) (by simp [sizeOf_eq])
  · intro i j hi hj h
    have hil : i.length = v.shape.length := hi.length_eq
    have hjl : j.length = v.shape.length := hj.length_eq
    show (v.denote mem).get _ = _
    congr 1
    apply List.ext_getElem
    · simp [hil, hjl]
    · intro x h1 h2
      have hx : x < v.shape.length := by omega
      have h3 := h x hx
      have h4 := inShape_getD hi hx
      change (i.getD x 0 + sh (v.shape.getD x 0)) % v.shape.getD x 0 = j.getD x 0 at h3
      change i.getD x 0 < v.shape.getD x 0 at h4
      rw [List.getD_eq_getElem _ _ h2, List.getD_eq_getElem _ _ hx] at h3 h4
      rw [List.getD_eq_getElem _ _ (by omega)] at h3
      simp only [List.getElem_map, List.getElem_zip]
      have h5 := hsh v.shape[x]
      rw [← h3]
      clear h3
      generalize sh v.shape[x] = s at *
      generalize v.shape[x] = n at *
      by_cases hc : i[x] + s < n
      · rw [Nat.mod_eq_of_lt hc, show i[x] + s + n - s = i[x] + n by omega, Nat.add_mod_right, Nat.mod_eq_of_lt h4]
      · have : (i[x] + s) % n = i[x] + s - n := by
          rw [Nat.mod_eq_sub_mod (by omega), Nat.mod_eq_of_lt (by omega)]
        rw [this, show i[x] + s - n + n - s = i[x] by omega, Nat.mod_eq_of_lt h4]

/-- C55: for arrays with one or two axes, `fftshift` moves position `k` of an axis of length `n` to
`k + n / 2`, wrapping around. -/
theorem C55_fftshift (mem : Int → α) (v : View) (h : v.shape.length = 1 ∨ v.shape.length = 2) (zero : α) :
    ∃ r nd, fftshift mem v zero = some r ∧ r.Is nd ∧ IsRolledAll (v.denote mem) nd fun x => v.shape.getD x 0 / 2 := by
  obtain ⟨nd, h1, h2⟩ := shiftArray_rolled mem v (· / 2) (fun n => by omega) zero
  exact ⟨_, nd, by unfold fftshift; rw [if_neg (by omega)], h1, h2⟩

/-- C55: `ifftshift` moves position `k` to `k + ⌈n / 2⌉`. -/
theorem C55_ifftshift (mem : Int → α) (v : View) (h : v.shape.length = 1 ∨ v.shape.length = 2) (zero : α) :
    ∃ r nd, ifftshift mem v zero = some r ∧ r.Is nd ∧ IsRolledAll (v.denote mem) nd fun x => (v.shape.getD x 0 + 1) / 2 := by
  obtain ⟨nd, h1, h2⟩ := shiftArray_rolled mem v (fun n => (n + 1) / 2) (fun n => by omega) zero
  exact ⟨_, nd, by unfold ifftshift; rw [if_neg (by omega)], h1, h2⟩

theorem rolled_back {a b c : Nd α} {s t : Nat → Nat} (h1 : IsRolledAll a b s) (h2 : IsRolledAll b c t)
    (hst : ∀ x, x < a.shape.length → (s x + t x) % a.shape.getD x 0 = 0) : c.Same a := by
  refine ⟨h2.1.trans h1.1, fun i hi => ?_⟩
  rw [h2.1, h1.1] at hi
  set j := (List.range a.shape.length).map fun x => (i.getD x 0 + s x) % a.shape.getD x 0 with hj
  have hjx : ∀ x, x < a.shape.length → j.getD x 0 = (i.getD x 0 + s x) % a.shape.getD x 0 := by
    intro x hx
    rw [List.getD_eq_getElem _ _ (by simpa [hj] using hx)]
    simp [hj]
  have hjin : InShape a.shape j := by
    rw [inShape_iff_getD]
    refine ⟨by simp [hj], fun x hx => ?_⟩
    rw [hjx x hx]
    have := inShape_getD hi hx
    exact Nat.mod_lt _ (by omega)
  rw [h2.2 j i (by rw [h1.1]; exact hjin) (by rw [h1.1]; exact hi) ?_, h1.2 i j hi hjin fun x hx => (hjx x hx).symm]
  intro x hx
  rw [h1.1] at hx ⊢
  rw [hjx x hx, Nat.mod_add_mod]
  have h3 := hst x hx
  have h4 := inShape_getD hi hx
  rw [Nat.add_assoc, Nat.add_mod, h3, Nat.add_zero, Nat.mod_mod, Nat.mod_eq_of_lt h4]

theorem half_sum (n : Nat) : (n / 2 + (n + 1) / 2) % n = 0 ∧ ((n + 1) / 2 + n / 2) % n = 0 := by
  have h : n / 2 + (n + 1) / 2 = n := by omega
  constructor
  · rw [h, Nat.mod_self]
  · rw [Nat.add_comm, h, Nat.mod_self]

theorem IsRolledAll.left {a b r : Nd α} {s s' : Nat → Nat} (h : IsRolledAll a r s) (hs : a.Same b)
    (he : ∀ x, x < b.shape.length → s x = s' x) : IsRolledAll b r s' := by
  refine ⟨h.1.trans hs.1, fun i j hi hj hij => ?_⟩
  rw [← hs.1] at hi hj hij he
  rw [h.2 i j hi hj fun x hx => by rw [he x hx]; exact hij x hx, hs.2 i hi]

/-- C55: `ifftshift(fftshift(a)) = a`, for odd and even lengths and every memory layout of `a`. -/
theorem C55_inverse (mem : Int → α) (v : View) (hitem : 0 < v.item) (h : v.shape.length = 1 ∨ v.shape.length = 2) (zero : α) :
    ∃ r r', fftshift mem v zero = some r ∧ ifftshift (r.mem v.item zero) (r.view v.item) zero = some r' ∧
      r'.Is (v.denote mem) := by
  obtain ⟨r, nd, h1, h2, h3⟩ := C55_fftshift mem v h zero
  have hs : (r.view v.item).shape = v.shape := h2.1.trans h3.1
  obtain ⟨r', nd', h4, h5, h6⟩ := C55_ifftshift (r.mem v.item zero) (r.view v.item) (by rw [hs]; exact h) zero
  have h7 := IsRolledAll.left h6 (h2.denote hitem zero) (s' := fun x => (v.shape.getD x 0 + 1) / 2) (fun x _ => by rw [hs])
  exact ⟨r, r', h1, h4, h5.congr (rolled_back h3 h7 fun x _ => (half_sum _).1)⟩

/-- C55: `fftshift(ifftshift(a)) = a`. -/
theorem C55_inverse_left (mem : Int → α) (v : View) (hitem : 0 < v.item) (h : v.shape.length = 1 ∨ v.shape.length = 2) (zero : α) :
    ∃ r r', ifftshift mem v zero = some r ∧ fftshift (r.mem v.item zero) (r.view v.item) zero = some r' ∧
      r'.Is (v.denote mem) := by
  obtain ⟨r, nd, h1, h2, h3⟩ := C55_ifftshift mem v h zero
  have hs : (r.view v.item).shape = v.shape := h2.1.trans h3.1
  obtain ⟨r', nd', h4, h5, h6⟩ := C55_fftshift (r.mem v.item zero) (r.view v.item) (by rw [hs]; exact h) zero
  have h7 := IsRolledAll.left h6 (h2.denote hitem zero) (s' := fun x => v.shape.getD x 0 / 2) (fun x _ => by rw [hs])
  exact ⟨r, r', h1, h4, h5.congr (rolled_back h3 h7 fun x _ => (half_sum _).2)⟩

example : fftshift (fun p => p) (View.fresh [5] 1) 0 = some ⟨[5], [3, 4, 0, 1, 2]⟩ ∧
    ifftshift (fun p => p) (View.fresh [5] 1) 0 = some ⟨[5], [2, 3, 4, 0, 1]⟩ ∧
    fftshift (fun p => p) (View.fresh [2, 3] 1) 0 = some ⟨[2, 3], [5, 3, 4, 2, 0, 1]⟩ := by decide

/-- C55 fails for three axes, where `numpy` shifts every axis: the call is rejected. -/
theorem C55_axes_counterexample :
    fftshift (fun p => p) (View.fresh [2, 2, 2] 1) 0 = none ∧ ifftshift (fun p => p) (View.fresh [2, 2, 2] 1) 0 = none := by
  decide

/-- C55: `fftshift(fftfreq(n, d))` is `(k - n/2) / (n*d)` at position `k`. -/
theorem C55_fftfreq [Field K] (n : Nat) (d : K) (item : Nat) (hitem : 0 < item) :
    ∃ r, fftshift ((⟨[n], fftfreq n d⟩ : Arr K).mem item 0) ((⟨[n], fftfreq n d⟩ : Arr K).view item) 0 = some r ∧
      r.shape = [n] ∧ r.data = (List.range n).map fun k : Nat => (((k : Int) - (n / 2 : Nat) : Int) : K) * (1 / ((n : K) * d)) := by
  set f : Nat → K := fun i => if i < (n + 1) / 2 then (i : K) * (1 / ((n : K) * d)) else (((i : Int) - (n : Int) : Int) : K) * (1 / ((n : K) * d)) with hf
  have hI : (⟨[n], fftfreq n d⟩ : Arr K).Is ⟨[n], fun idx => f (idx.getD 0 0)⟩ := by
    refine ⟨rfl, ?_⟩
    rw [toList_one rfl]
    simp [fftfreq, hf]
  have hd := hI.denote hitem (0 : K)
  obtain ⟨r, nd, h1, h2, h3⟩ := C55_fftshift ((⟨[n], fftfreq n d⟩ : Arr K).mem item 0) ((⟨[n], fftfreq n d⟩ : Arr K).view item) (Or.inl rfl) (0 : K)
  have h4 := IsRolledAll.left h3 hd (s' := fun _ => n / 2) (fun x hx => by
    have : x = 0 := by simp at hx; exact hx
    subst this
    rfl)
  refine ⟨r, h1, h2.1.trans h4.1, ?_⟩
  rw [h2.2, toList_one (n := n) h4.1]
  apply List.map_congr_left
  intro k hk
  rw [List.mem_range] at hk
  rw [h4.2 [(k + (n + 1) / 2) % n] [k] ⟨Nat.mod_lt _ (by omega), trivial⟩ ⟨hk, trivial⟩ ?_]
  · show f ((k + (n + 1) / 2) % n) = _
    rw [hf]
    dsimp only
    by_cases hc : k + (n + 1) / 2 < n
    · rw [Nat.mod_eq_of_lt hc, if_neg (by omega)]
      congr 2
      omega
    · have : (k + (n + 1) / 2) % n = k + (n + 1) / 2 - n := by
        rw [Nat.mod_eq_sub_mod (by omega), Nat.mod_eq_of_lt (by omega)]
      rw [this, if_pos (by omega)]
      have h5 : ((k + (n + 1) / 2 - n : Nat) : Int) = (k : Int) - (n / 2 : Nat) := by omega
      rw [← h5, Int.cast_natCast]
  · intro x hx
    have : x = 0 := by simp at hx; exact hx
    subst this
    show ((k + (n + 1) / 2) % n + n / 2) % n = k
    rw [Nat.mod_add_mod, show k + (n + 1) / 2 + n / 2 = k + n by omega, Nat.add_mod_right, Nat.mod_eq_of_lt hk]

/-- C55: the shifted frequencies increase. -/
theorem C55_increasing [Field K] [LinearOrder K] [IsStrictOrderedRing K] (n : Nat) (d : K) (hd : 0 < d) (item : Nat) (hitem : 0 < item) (r : Arr K)
    (h : fftshift ((⟨[n], fftfreq n d⟩ : Arr K).mem item 0) ((⟨[n], fftfreq n d⟩ : Arr K).view item) 0 = some r) :
    r.data.Pairwise (· < ·) := by
  obtain ⟨r', h1, _, h3⟩ := C55_fftfreq n d item hitem
  rw [h, Option.some.injEq] at h1
  subst h1
  rw [h3, List.pairwise_map]
  rcases Nat.eq_zero_or_pos n with rfl | hn
  · simp
  have hpos : 0 < 1 / ((n : K) * d) := one_div_pos.2 (mul_pos (by exact_mod_cast hn) hd)
  refine List.pairwise_lt_range.imp fun {a b} hab => ?_
  apply mul_lt_mul_of_pos_right _ hpos
  exact_mod_cast (by omega : (a : Int) - (n / 2 : Nat) < (b : Int) - (n / 2 : Nat))

/-- C55: `rfftfreq` lists the non-negative frequencies `k / (n*d)`, `k ≤ n/2`. -/
theorem C55_rfftfreq [Field K] (n : Nat) (d : K) (k : Nat) :
    (rfftfreq n d)[k]? = if k ≤ n / 2 then some ((k : K) / ((n : K) * d)) else none := by
  unfold rfftfreq
  split
  · rename_i h
    rw [List.getElem?_map, List.getElem?_range (by omega)]
    simp [div_eq_mul_inv]
  · rw [List.getElem?_eq_none]; simp; omega

/-! ### C63 -/

/-- What the theorems assume about `rustfft` and the complex numbers: the forward plan is the discrete Fourier
transform with primitive roots of unity, the inverse plan the one with the inverse roots (not
normalised), conjugation is a field automorphism that inverts the roots, and `re` keeps real numbers. -/
structure Exact [Field K] (P : Planner K) (w : Nat → K) (σ : K →+* K) : Prop where
  root : ∀ n, 0 < n → IsPrimitiveRoot (w n) n
  fwd : IsDft w P.fwd
  inv : IsDft (fun n => (w n)⁻¹) P.inv
  conj : P.conj = σ
  conj_conj : ∀ c, σ (σ c) = c
  conj_root : ∀ n, 0 < n → σ (w n) = (w n)⁻¹
  re : ∀ c, σ c = c → P.re c = c

/-- The complex numbers, with exact sums as plans, meet the assumptions. -/
theorem exact_complex : ∃ P w σ, Exact (K := ℂ) P w σ := by
  let w : Nat → ℂ := fun n => (Complex.exp (2 * Real.pi * Complex.I / n))⁻¹
  have hr : ∀ n : Nat, 0 < n → IsPrimitiveRoot (w n) n := fun n hn => (Complex.isPrimitiveRoot_exp n (by omega)).inv
  refine ⟨⟨fun n => dftList (w n), fun n => dftList (w n)⁻¹, starRingEnd ℂ, fun c => (c.re : ℂ)⟩, w, starRingEnd ℂ,
    hr, fun xs => rfl, fun xs => rfl, rfl, Complex.conj_conj, fun n hn => ?_, fun c hc => Complex.conj_eq_iff_re.1 hc⟩
  show (starRingEnd ℂ) (Complex.exp (2 * Real.pi * Complex.I / n))⁻¹ = ((Complex.exp (2 * Real.pi * Complex.I / n))⁻¹)⁻¹
  rw [inv_inv, map_inv₀, ← Complex.exp_conj, ← Complex.exp_neg]
  congr 1
  simp only [map_div₀, map_mul, Complex.conj_I, Complex.conj_ofReal, map_natCast, map_ofNat]
  ring

variable [Field K] {P : Planner K} {w : Nat → K} {σ : K →+* K}

theorem validateAxes_some {axes : List Nat} {n : Nat} (hne : axes ≠ []) (hlt : ∀ a ∈ axes, a < n) :
    validateAxes (some axes) n = some axes := by
  unfold validateAxes
  dsimp only [Option.getD_some]
  rw [if_neg]
  simp only [List.any_eq_true, decide_eq_true_eq, not_or, not_exists, not_and]
  exact ⟨hne, fun a ha => by have := hlt a ha; omega⟩

theorem ne_zero_of_axes {axes : List Nat} {n : Nat} (hne : axes ≠ []) (hlt : ∀ a ∈ axes, a < n) : n ≠ 0 := by
  obtain ⟨a, ha⟩ := List.exists_mem_of_ne_nil axes hne
  have := hlt a ha
  omega

/-- C63: `fftn` is the discrete Fourier transform along the given axes, for every memory layout. -/
theorem C63_fftn (hE : Exact P w σ) (wide : Bool) (mem : Int → K) (v : View) (hw : v.WF) (axes : List Nat)
    (hne : axes ≠ []) (hlt : ∀ a ∈ axes, a < v.shape.length) :
    ∃ r, fftn P wide mem v (some axes) = some r ∧ r.Is ((v.denote mem).dft w axes) := by
  refine ⟨⟨v.shape, fftAxes 0 P.fwd v.shape axes (toComplexBuffer wide mem v)⟩, ?_, ?_⟩
  · unfold fftn
    rw [if_neg (ne_zero_of_axes hne hlt), validateAxes_some hne hlt]
    rfl
  · have := fftAxes_eq hE.fwd axes v.shape (v.denote mem).get hlt
    refine ⟨this.2.symm, ?_⟩
    show fftAxes _ _ _ _ _ = _
    rw [toComplexBuffer_eq wide mem hw]
    exact this.1

/-- C63: `fftn` and `ifftn` reject exactly the empty list of axes, axes out of range and 0-d arrays. -/
theorem C63_fftn_error_iff (wide : Bool) (mem : Int → K) (v : View) (axes : Option (List Nat)) :
    (fftn P wide mem v axes = none ↔ (axes = some [] ∨ (∃ l, axes = some l ∧ ∃ a ∈ l, v.shape.length ≤ a) ∨ v.shape = [])) ∧
    (ifftn P wide mem v axes = none ↔ fftn P wide mem v axes = none) := by
  unfold fftn ifftn
  have hv : validateAxes axes v.shape.length = none ↔
      (axes = some [] ∨ (∃ l, axes = some l ∧ ∃ a ∈ l, v.shape.length ≤ a) ∨ (axes = none ∧ v.shape.length = 0)) := by
    unfold validateAxes
    dsimp only
    rcases axes with _ | l
    · simp only [Option.getD_none, List.range_eq_nil, List.any_eq_true, List.mem_range, decide_eq_true_eq]
      constructor
      · intro h
        split at h
        · rename_i hc
          rcases hc with hc | ⟨x, h1, h2⟩
          · exact Or.inr (Or.inr ⟨trivial, hc⟩)
          · omega
        · simp at h
      · rintro (h | ⟨l, h, _⟩ | ⟨_, h⟩)
        · simp at h
        · simp at h
        · rw [if_pos (Or.inl h)]
    · simp
      tauto
  by_cases h0 : v.shape.length = 0
  · have : v.shape = [] := List.length_eq_zero_iff.1 h0
    simp [this]
  · have hne : v.shape ≠ [] := fun h => h0 (by rw [h]; rfl)
    rw [if_neg h0, if_neg h0]
    cases hval : validateAxes axes v.shape.length with
    | none =>
      rw [hval] at hv
      have := hv.1 rfl
      simp only [Option.bind_eq_bind, Option.bind_none, true_iff, and_true, h0, and_false, or_false, hne] at this ⊢
      exact this
    | some l =>
      rw [hval] at hv
      simp only [Option.bind_eq_bind, Option.bind_some, h0, hne, and_false, or_false] at hv ⊢
      constructor
      · constructor
        · intro h; cases h
        · intro h; exact absurd (hv.2 h) (by simp)
      · constructor
        · intro h; cases h
        · intro h; cases h

theorem Exact.opp (hE : Exact P w σ) : Opposite w fun n => (w n)⁻¹ := fun n hn => ⟨hE.root n hn, rfl⟩

/-- C63: `ifftn` is the inverse transform divided by the number of transformed positions. -/
theorem C63_ifftn (hE : Exact P w σ) (wide : Bool) (mem : Int → K) (v : View) (hw : v.WF) (axes : List Nat)
    (hne : axes ≠ []) (hlt : ∀ a ∈ axes, a < v.shape.length) :
    ∃ r, ifftn P wide mem v (some axes) = some r ∧
      r.Is (((v.denote mem).dft (fun n => (w n)⁻¹) axes).scale (1 / ((axes.map fun a => v.shape.getD a 0).prod : Nat))) := by
  have hf := fftAxes_eq hE.inv axes v.shape (v.denote mem).get hlt
  have hsh : ((⟨v.shape, (v.denote mem).get⟩ : Nd K).dft (fun n => (w n)⁻¹) axes) = (v.denote mem).dft (fun n => (w n)⁻¹) axes := rfl
  refine ⟨_, by unfold ifftn; rw [if_neg (ne_zero_of_axes hne hlt), validateAxes_some hne hlt]; rfl, ?_, ?_⟩
  · exact hf.2.symm
  · rw [toComplexBuffer_eq wide mem hw, hf.1, hsh]
    show (if (axes.map fun a => v.shape.getD a 0).prod > 0 then _ else _) = _
    have hmap : ∀ c : K, ((v.denote mem).dft (fun n => (w n)⁻¹) axes).toList.map (· * c) =
        (((v.denote mem).dft (fun n => (w n)⁻¹) axes).scale c).toList := by
      intro c
      unfold Nd.toList
      rw [List.map_map]
      apply List.map_congr_left
      intro idx _
      exact mul_comm _ _
    split
    · exact hmap _
    · -- an empty axis: no elements
      rename_i h0
      have h0 : (axes.map fun a => v.shape.getD a 0).prod = 0 := by omega
      rw [List.prod_eq_zero_iff] at h0
      obtain ⟨a, ha, ha0⟩ := List.mem_map.1 h0
      have hsz : size v.shape = 0 := by
        have := size_set_getD (hlt a ha) (v.shape.getD a 0)
        rw [Rumpy.set_getD_self (hlt a ha), ha0, Nat.mul_zero] at this
        exact this
      have hnil : ∀ nd : Nd K, nd.shape = v.shape → nd.toList = [] := by
        intro nd hnd
        apply List.length_eq_zero_iff.1
        rw [Nd.length_toList, hnd, hsz]
      have hq : ((v.denote mem).dft (fun n => (w n)⁻¹) axes).shape = v.shape := hf.2
      rw [hnil _ hq, hnil _ (show (Nd.scale _ _).shape = v.shape from hq)]

/-- C63: `ifftn(fftn(a, axes), axes) = a`, for every shape, memory layout and list of axes. -/
theorem C63_ifftn_fftn [CharZero K] (hE : Exact P w σ) (wide wide' : Bool) (mem : Int → K) (v : View) (hw : v.WF) (item : Nat)
    (hitem : 0 < item) (axes : List Nat) (hne : axes ≠ []) (hlt : ∀ a ∈ axes, a < v.shape.length) :
    ∃ r r', fftn P wide mem v (some axes) = some r ∧
      ifftn P wide' (r.mem item 0) (r.view item) (some axes) = some r' ∧ r'.Is (v.denote mem) := by
  obtain ⟨r, h1, h2⟩ := C63_fftn hE wide mem v hw axes hne hlt
  have hs : r.shape = v.shape := h2.1.trans (dft_shape _ _ _)
  have hs' : (r.view item).shape = v.shape := hs
  obtain ⟨r', h3, h4⟩ := C63_ifftn hE wide' (r.mem item 0) (r.view item) (View.WF.fresh _ _) axes hne (by rw [hs']; exact hlt)
  refine ⟨r, r', h1, h3, h4.congr ?_⟩
  rw [hs']
  have h5 := dft_congr (fun n => (w n)⁻¹) axes (h2.denote hitem 0) (by
    intro x hx
    show x < (r.view item).shape.length
    rw [hs']; exact hlt x hx)
  refine (scale_same _ (h5.trans (dft_opp hE.opp axes (v.denote mem) hlt))).trans ⟨rfl, fun idx hi => ?_⟩
  show _ * (_ * (v.denote mem).get idx) = _
  rw [← mul_assoc]
  have hpos : (axes.map fun a => v.shape.getD a 0).prod ≠ 0 := by
    rw [Ne, List.prod_eq_zero_iff]
    intro h0
    obtain ⟨a, ha, ha0⟩ := List.mem_map.1 h0
    have := inShape_getD (s := v.shape) hi (hlt a ha)
    omega
  have : (((axes.map fun a => v.shape.getD a 0).prod : Nat) : K) ≠ 0 := by exact_mod_cast hpos
  show 1 / (((axes.map fun a => v.shape.getD a 0).prod : Nat) : K) * (((axes.map fun a => v.shape.getD a 0).prod : Nat) : K) * _ = _
  rw [one_div_mul_cancel this, one_mul]

/-! One-dimensional transforms. -/

theorem one_dim {v : View} (h : v.shape.length = 1) : ∃ n, v.shape = [n] := by
  obtain ⟨n, hn⟩ := List.length_eq_one_iff.1 h
  exact ⟨n, hn⟩

theorem buffer_list (wide : Bool) (mem : Int → K) {v : View} (hw : v.WF) : toComplexBuffer wide mem v = (v.denote mem).toList :=
  toComplexBuffer_eq wide mem hw

/-- C63: `fft` is the discrete Fourier transform of the elements, `ifft` inverts it. -/
theorem C63_ifft_fft [CharZero K] (hE : Exact P w σ) (wide wide' : Bool) (mem : Int → K) (v : View) (hw : v.WF)
    (h1 : v.shape.length = 1) (item : Nat) (hitem : 0 < item) :
    ∃ r r', fft1 P wide mem v = some r ∧ r.data = dftList (w (size v.shape)) (v.denote mem).toList ∧
      ifft1 P wide' (r.mem item 0) (r.view item) = some r' ∧ r'.Is (v.denote mem) := by
  obtain ⟨n, hn⟩ := one_dim h1
  have hsz : Rumpy.sizeOf v.shape = n := by rw [hn]; simp [Rumpy.sizeOf]
  have hsz' : size v.shape = n := by rw [hn]; simp [size]
  have hlen : (v.denote mem).toList.length = n := by rw [Nd.length_toList]; exact hsz'
  rcases Nat.eq_zero_or_pos n with h0 | hpos
  · refine ⟨⟨[0], []⟩, ⟨[0], []⟩, ?_, ?_, ?_, ?_⟩
    · unfold fft1; rw [if_neg (by omega), if_pos (by omega)]
    · have : (v.denote mem).toList = [] := List.length_eq_zero_iff.1 (by omega)
      rw [this]; rfl
    · unfold ifft1
      rw [if_neg (by simp [Arr.view, View.fresh]), if_pos (by simp [Arr.view, View.fresh, Rumpy.sizeOf])]
    · have : (v.denote mem).toList = [] := List.length_eq_zero_iff.1 (by omega)
      exact ⟨by show [0] = v.shape; rw [hn, h0], this.symm⟩
  · have hF := hE.fwd (v.denote mem).toList
    rw [hlen] at hF
    set X := dftList (w n) (v.denote mem).toList with hX
    have hXl : X.length = n := by rw [hX, dftList_eq]; simp [hlen]
    set r : Arr K := ⟨[n], X⟩ with hr
    have hrn : r.Is ⟨[n], fun idx => X.getD (idx.getD 0 0) 0⟩ := by
      refine ⟨rfl, ?_⟩
      rw [toList_one rfl]
      apply List.ext_getElem
      · simp [hr, hXl]
      · intro i h1 h2
        simp only [List.getElem_map, List.getElem_range, List.getD_cons_zero]
        exact (List.getD_eq_getElem _ _ h1).symm
    have hbuf : toComplexBuffer wide' (r.mem item 0) (r.view item) = X := by
      rw [buffer_list wide' _ (v := r.view item) (View.WF.fresh _ _)]
      exact (Rumpy.Nd.Same.toList (hrn.denote hitem 0)).trans hrn.2.symm
    have hinv := hE.inv X
    rw [hXl] at hinv
    refine ⟨r, ⟨[n], (P.inv n X).map (· * (1 / (n : K)))⟩, ?_, by rw [hsz'], ?_, ?_⟩
    · unfold fft1
      rw [if_neg (by omega), if_neg (by omega), hsz, buffer_list wide mem hw, hF]
    · unfold ifft1
      have : Rumpy.sizeOf (r.view item).shape = n := by simp [hr, Arr.view, View.fresh, Rumpy.sizeOf]
      rw [if_neg (by simp [hr, Arr.view, View.fresh]), this, if_neg (by omega), hbuf]
    · refine ⟨by show [n] = v.shape; rw [hn], ?_⟩
      show (P.inv n X).map _ = _
      have hroot := hE.root n hpos
      have hi := dftList_inv (w := w n) (xs := (v.denote mem).toList) (by rw [hlen]; exact hroot) 1
      rw [hlen] at hi
      have hX' : X = (List.range n).map fun k => 1 * freq (w n) (v.denote mem).toList k := by
        rw [hX, dftList_eq, hlen]
        simp
      rw [hinv, hX', hi, List.map_map]
      have hn0 : (n : K) ≠ 0 := by exact_mod_cast (by omega : n ≠ 0)
      conv_rhs => rw [← List.map_id (v.denote mem).toList]
      apply List.map_congr_left
      intro x _
      show (n : K) * (1 * x) * (1 / (n : K)) = x
      field_simp

/-- The elements of the array are real: conjugation does not change them. -/
def RealElems (σ : K →+* K) (a : Nd K) : Prop := ∀ idx, InShape a.shape idx → σ (a.get idx) = a.get idx

theorem RealElems.list {a : Nd K} (h : RealElems σ a) : ∀ x ∈ a.toList, σ x = x := by
  intro x hx
  obtain ⟨idx, hi, rfl⟩ := List.mem_map.1 hx
  exact h idx (mem_indices.1 hi)

theorem arr_list_buffer (wide : Bool) {n : Nat} {X : List K} (hX : X.length = n) {item : Nat} (hitem : 0 < item) :
    toComplexBuffer wide ((⟨[n], X⟩ : Arr K).mem item 0) ((⟨[n], X⟩ : Arr K).view item) = X := by
  have hrn : (⟨[n], X⟩ : Arr K).Is ⟨[n], fun idx => X.getD (idx.getD 0 0) 0⟩ := by
    refine ⟨rfl, ?_⟩
    rw [toList_one rfl]
    apply List.ext_getElem
    · simp [hX]
    · intro i h1 h2
      simp only [List.getElem_map, List.getElem_range, List.getD_cons_zero]
      exact (List.getD_eq_getElem _ _ h1).symm
  rw [buffer_list wide _ (v := (⟨[n], X⟩ : Arr K).view item) (View.WF.fresh _ _)]
  exact (Rumpy.Nd.Same.toList (hrn.denote hitem 0)).trans hrn.2.symm

theorem writes_front (f : Nat → K) {a b : Nat} (hab : a ≤ b) :
    writes (((List.range a).map f).zipIdx.map fun x => (x.2, x.1)) (List.replicate b (0 : K))
      = (List.range b).map fun k => ((List.range a).map f).getD k 0 := by
  have := writes_prefix (fun x : K => x) ((List.range a).map f) (List.replicate b (0 : K)) (by simp; omega)
  rw [this]
  apply List.ext_getElem
  · simp; omega
  · intro i h1 h2
    have hi : i < b := by simpa using h2
    simp only [List.getElem_map, List.getElem_range]
    by_cases hc : i < a
    · rw [List.getElem_append_left (by simpa using hc), List.getD_eq_getElem _ _ (by simpa using hc)]
      simp
    · rw [List.getElem_append_right (by simpa using hc), List.getD, List.getElem?_eq_none (by simp; omega), Option.getD_none]
      simp only [List.getElem_drop, List.getElem_replicate]

theorem getD_map_range (f : Nat → K) {n k : Nat} (hk : k < n) (z : K) : ((List.range n).map f).getD k z = f k := by
  rw [List.getD_eq_getElem _ _ (by simpa using hk)]; simp

/-- C63: `rfft` returns the first `n/2 + 1` frequencies of `fft`. -/
theorem C63_rfft (hE : Exact P w σ) (wide : Bool) (mem : Int → K) (v : View) (hw : v.WF)
    (h1 : v.shape.length = 1) (hpos : 0 < size v.shape) :
    rfft1 P wide mem v = some ⟨[size v.shape / 2 + 1],
      (List.range (size v.shape / 2 + 1)).map (freq (w (size v.shape)) (v.denote mem).toList)⟩ := by
  have hlen : (v.denote mem).toList.length = size v.shape := Nd.length_toList _
  have hF := hE.fwd (v.denote mem).toList
  rw [hlen] at hF
  unfold rfft1
  dsimp only
  rw [if_neg (by omega), sizeOf_eq, if_neg (by omega), buffer_list wide mem hw, hF, dftList_eq, hlen, ← List.map_take, List.take_range,
    Nat.min_eq_left (by omega)]

/-- C63: `irfft(rfft(a)) = a` for real data of even length. -/
theorem C63_irfft_rfft [CharZero K] (hE : Exact P w σ) (wide wide' : Bool) (mem : Int → K) (v : View) (hw : v.WF)
    (h1 : v.shape.length = 1) (hpos : 0 < size v.shape) (heven : size v.shape % 2 = 0) (hreal : RealElems σ (v.denote mem))
    (item : Nat) (hitem : 0 < item) :
    ∃ r r', rfft1 P wide mem v = some r ∧ irfft1 P wide' (r.mem item 0) (r.view item) = .ok r' ∧ r'.Is (v.denote mem) := by
  obtain ⟨n, hn⟩ := one_dim h1
  have hsz : size v.shape = n := by rw [hn]; simp [size]
  set xs := (v.denote mem).toList with hxs
  have hlen : xs.length = n := by rw [hxs, Nd.length_toList]; exact hsz
  obtain ⟨m, hm⟩ : ∃ m, n = 2 * m := ⟨n / 2, by omega⟩
  have hm0 : 0 < m := by omega
  have hn0 : (n : K) ≠ 0 := by exact_mod_cast (by omega : n ≠ 0)
  have hroot := hE.root n (by omega)
  set F := freq (w n) xs with hF
  have hr := C63_rfft hE wide mem v hw h1 hpos
  rw [hsz, ← hxs, ← hF, show n / 2 + 1 = m + 1 by omega] at hr
  have hbuf := arr_list_buffer wide' (n := m + 1) (X := (List.range (m + 1)).map F) (by simp) hitem
  have hfill := fill_even σ (xs := xs) (w := w n) (by rw [hlen]; exact hroot) (hE.conj_root n (by omega)) (hreal.list) (m := m)
    (by omega) hm0 1 (map_one σ) (fun k => P.conj (((List.range (m + 1)).map F).getD k 0))
    (fun k => ((List.range (m + 1)).map F).getD k 0)
    (fun k hk1 hk2 => by
      rw [getD_map_range F (by omega), hE.conj, one_mul])
    (fun k hk => by
      rw [getD_map_range F (by omega), one_mul])
  have hbase := writes_front F (a := m + 1) (b := 2 * m) (by omega)
  have hi := dftList_inv (w := w n) (xs := xs) (by rw [hlen]; exact hroot) 1
  have hinv := hE.inv ((List.range xs.length).map fun k => 1 * freq (w n) xs k)
  rw [List.length_map, List.length_range, hlen] at hinv
  rw [hlen] at hi
  refine ⟨_, ⟨[n], (xs.map fun x => (n : K) * (1 * x)).map fun c => P.re c * (1 / (n : K))⟩, hr, ?_, ?_⟩
  · unfold irfft1
    have hs : Rumpy.sizeOf ((⟨[m + 1], (List.range (m + 1)).map F⟩ : Arr K).view item).shape = m + 1 := by
      simp [Arr.view, View.fresh, Rumpy.sizeOf]
    dsimp only
    rw [if_neg (by simp [Arr.view, View.fresh]), hs, if_neg (by omega), hbuf]
    rw [show 2 * (m + 1 - 1) = 2 * m by omega, if_neg (by omega), hbase]
    unfold mirror
    rw [show m + 1 - 1 = m by omega, hfill, ← hm, hlen, hinv, hi]
  · refine ⟨by show [n] = v.shape; rw [hn], ?_⟩
    show _ = xs
    rw [List.map_map]
    conv_rhs => rw [← List.map_id xs]
    apply List.map_congr_left
    intro x hx
    show P.re ((n : K) * (1 * x)) * (1 / (n : K)) = x
    rw [hE.re _ (by rw [map_mul, map_natCast, one_mul, hreal.list x hx])]
    field_simp

/-- C63 fails for one frequency: `irfft` panics instead of reporting an error. -/
theorem C63_irfft_panic_iff (wide : Bool) (mem : Int → K) (v : View) :
    irfft1 P wide mem v = .panic ↔ v.shape = [1] := by
  unfold irfft1
  by_cases h : v.shape.length = 1
  · obtain ⟨n, hn⟩ := one_dim h
    have hsz : Rumpy.sizeOf v.shape = n := by rw [hn]; simp [Rumpy.sizeOf]
    dsimp only
    rw [if_neg (by omega), hsz, hn]
    constructor
    · intro hp
      split at hp
      · simp at hp
      · split at hp
        · congr 1; omega
        · simp at hp
    · intro hp
      have : n = 1 := by simpa using hp
      subst this
      rfl
  · rw [if_pos h]
    constructor
    · intro hp; cases hp
    · intro hp; rw [hp] at h; exact absurd rfl h

/-- C63: `hfft(ihfft(a)) = a` for real data of even length. -/
theorem C63_hfft_ihfft [CharZero K] (hE : Exact P w σ) (wide wide' : Bool) (mem : Int → K) (v : View) (hw : v.WF)
    (h1 : v.shape.length = 1) (hpos : 0 < size v.shape) (heven : size v.shape % 2 = 0) (hreal : RealElems σ (v.denote mem))
    (item : Nat) (hitem : 0 < item) :
    ∃ r r', ihfft1 P wide mem v = some r ∧ hfft1 P wide' (r.mem item 0) (r.view item) none = some r' ∧ r'.Is (v.denote mem) := by
  obtain ⟨n, hn⟩ := one_dim h1
  have hsz : size v.shape = n := by rw [hn]; simp [size]
  set xs := (v.denote mem).toList with hxs
  have hlen : xs.length = n := by rw [hxs, Nd.length_toList]; exact hsz
  obtain ⟨m, hm⟩ : ∃ m, n = 2 * m := ⟨n / 2, by omega⟩
  have hm0 : 0 < m := by omega
  have hn0 : (n : K) ≠ 0 := by exact_mod_cast (by omega : n ≠ 0)
  have hroot := hE.root n (by omega)
  set F := freq (w n) xs with hF
  have hfw := hE.fwd xs
  rw [hlen] at hfw
  have hcn : σ (1 / (n : K)) = 1 / (n : K) := by rw [map_div₀, map_one, map_natCast]
  set G : Nat → K := fun k => σ (F k) * (1 / (n : K)) with hG
  have hr : ihfft1 P wide mem v = some ⟨[m + 1], (List.range (m + 1)).map G⟩ := by
    unfold ihfft1
    dsimp only
    rw [if_neg (by omega), sizeOf_eq, hsz, if_neg (by omega), buffer_list wide mem hw, hfw, dftList_eq, hlen, List.map_map,
      ← List.map_take, List.take_range, Nat.min_eq_left (by omega), show n / 2 + 1 = m + 1 by omega, hE.conj]
    rfl
  have hbuf := arr_list_buffer wide' (n := m + 1) (X := (List.range (m + 1)).map G) (by simp) hitem
  have hpad : writes ((((List.range (m + 1)).map G).zipIdx.take (m + 1)).map fun x => (x.2, P.conj x.1)) (List.replicate (m + 1) (0 : K))
      = (List.range (m + 1)).map fun k => 1 / (n : K) * F k := by
    rw [List.take_of_length_le (by simp), writes_zipIdx P.conj _ _ (by simp), List.map_map]
    apply List.map_congr_left
    intro k _
    show P.conj (G k) = _
    rw [hE.conj, hG]
    dsimp only
    rw [map_mul, hE.conj_conj, hcn, mul_comm]
  have hbase := writes_front (fun k => 1 / (n : K) * F k) (a := m + 1) (b := 2 * m) (by omega)
  have hflat : ((List.range (min (m + 1) (2 * m) - 1 - 1)).flatMap fun k =>
        if 2 * m > k + 1 ∧ k + 1 < ((List.range (m + 1)).map G).length then [(2 * m - (k + 1), ((List.range (m + 1)).map G).getD (k + 1) 0)]
        else if 2 * m > k + 1 then [(2 * m - (k + 1), 0)] else [])
      = (List.range (m - 1)).map fun k => (2 * m - (k + 1), ((List.range (m + 1)).map G).getD (k + 1) 0) := by
    rw [show min (m + 1) (2 * m) - 1 - 1 = m - 1 by omega, ← List.flatMap_singleton' ((List.range (m - 1)).map _), List.flatMap_map]
    apply List.flatMap_congr
    intro k hk
    rw [List.mem_range] at hk
    rw [if_pos (by simp; omega)]
  have hfill := fill_even σ (xs := xs) (w := w n) (by rw [hlen]; exact hroot) (hE.conj_root n (by omega)) (hreal.list) (m := m)
    (by omega) hm0 (1 / (n : K)) hcn (fun k => ((List.range (m + 1)).map G).getD k 0)
    (fun k => ((List.range (m + 1)).map fun k => 1 / (n : K) * F k).getD k 0)
    (fun k hk1 hk2 => by
      rw [getD_map_range G (by omega), map_mul, hcn, mul_comm])
    (fun k hk => by
      rw [getD_map_range _ (by omega)])
  have hi := dftList_inv (w := w n) (xs := xs) (by rw [hlen]; exact hroot) (1 / (n : K))
  have hinv := hE.inv ((List.range xs.length).map fun k => 1 / (n : K) * freq (w n) xs k)
  rw [List.length_map, List.length_range, hlen] at hinv
  rw [hlen] at hi
  refine ⟨_, ⟨[n], (xs.map fun x => (n : K) * (1 / (n : K) * x)).map P.re⟩, hr, ?_, ?_⟩
  · unfold hfft1
    have hs : Rumpy.sizeOf ((⟨[m + 1], (List.range (m + 1)).map G⟩ : Arr K).view item).shape = m + 1 := by
      simp [Arr.view, View.fresh, Rumpy.sizeOf]
    dsimp only
    rw [if_neg (by simp [Arr.view, View.fresh]), hs, if_neg (by omega), hbuf]
    simp only [Option.getD_none]
    rw [show 2 * (m + 1 - 1) = 2 * m by omega, if_neg (by omega), show 2 * m / 2 + 1 = m + 1 by omega, hpad, hbase, hflat, hfill,
      ← hm, hlen, hinv, hi]
  · refine ⟨by show [n] = v.shape; rw [hn], ?_⟩
    show _ = xs
    rw [List.map_map]
    conv_rhs => rw [← List.map_id xs]
    apply List.map_congr_left
    intro x hx
    show P.re ((n : K) * (1 / (n : K) * x)) = x
    have e : (n : K) * (1 / (n : K) * x) = x := by field_simp
    rw [e, hE.re x (hreal.list x hx)]

/-! Real transforms along axes. -/

/-- C63: `rfftn` transforms the last axis, keeps its first `n/2 + 1` frequencies, and transforms the others. -/
theorem C63_rfftn (hE : Exact P w σ) (wide : Bool) (mem : Int → K) (v : View) (hw : v.WF) (rest : List Nat) (last : Nat)
    (hlt : ∀ a ∈ rest, a < v.shape.length) (hl : last < v.shape.length) (hsz : 0 < size v.shape) :
    ∃ r, rfftn P wide mem v (some (rest ++ [last])) = .ok r ∧
      r.Is ((((v.denote mem).dftAxis w last).shorten last (v.shape.getD last 0 / 2 + 1)).dft w rest) := by
  have hsplit : size v.shape = size (v.shape.eraseIdx last) * v.shape.getD last 0 := by
    rw [← size_set_getD hl, Rumpy.set_getD_self hl]
  set n := v.shape.getD last 0 with hn
  have hn0 : 0 < n := Nat.pos_of_ne_zero fun h => by rw [h, Nat.mul_zero] at hsplit; omega
  have he0 : 0 < size (v.shape.eraseIdx last) := Nat.pos_of_ne_zero fun h => by rw [h, Nat.zero_mul] at hsplit; omega
  have hlt' : ∀ a ∈ rest ++ [last], a < v.shape.length := by
    intro a ha
    rcases List.mem_append.1 ha with h | h
    · exact hlt a h
    · rw [List.mem_singleton.1 h]; exact hl
  have hrf := rfftAlongAxis_eq hl (n / 2 + 1) 0 (P.fwd n) (v.denote mem).get he0
  have hY : ((indices (v.shape.set last (n / 2 + 1))).map fun j =>
      (P.fwd n (laneOf (v.denote mem).get (v.shape.getD last 0) last (j.eraseIdx last))).getD (j.getD last 0) 0)
      = (indices (v.shape.set last (n / 2 + 1))).map ((v.denote mem).dftAxis w last).get := by
    apply List.map_congr_left
    intro j hj
    have hj' : InShape v.shape j := by
      have h2 := (Spec.inShape_set hl).1 (mem_indices.1 hj)
      rw [inShape_iff_getD]
      refine ⟨h2.1, fun k hk => ?_⟩
      by_cases hkl : k = last
      · subst hkl
        have := h2.2.1
        rw [← hn]
        omega
      · exact h2.2.2 k hk hkl
    exact laneOf_dft hE.fwd hl (v.denote mem).get hj'
  rw [hY] at hrf
  have hfa := fftAxes_eq hE.fwd rest.reverse (v.shape.set last (n / 2 + 1)) ((v.denote mem).dftAxis w last).get
    (by intro a ha; rw [List.length_set]; exact hlt a (by simpa using ha))
  refine ⟨⟨v.shape.set last (n / 2 + 1), fftAxes 0 P.fwd (v.shape.set last (n / 2 + 1)) rest.reverse
    ((indices (v.shape.set last (n / 2 + 1))).map ((v.denote mem).dftAxis w last).get)⟩, ?_, ?_⟩
  · unfold rfftn
    rw [if_neg (ne_zero_of_axes (by simp) hlt'), validateAxes_some (by simp) hlt']
    dsimp only
    rw [List.getLastD_concat, List.dropLast_concat, ← hn, if_neg (by omega), toComplexBuffer_eq wide mem hw, hrf]
  · refine Arr.Is.congr (a := ((⟨v.shape.set last (n / 2 + 1), ((v.denote mem).dftAxis w last).get⟩ : Nd K).dft w rest.reverse)) ⟨hfa.2.symm, hfa.1⟩ ?_
    rw [dft_perm w (List.reverse_perm rest)]
    exact .refl _

/-- C63, proved part: `irfftn(rfftn(a), s=a.shape) = a` for real data when the last transformed axis has even length
and is transformed once.  For odd lengths it is false, `C63_irfftn_odd_counterexample`. -/
theorem C63_irfftn_rfftn_partial [CharZero K] (hE : Exact P w σ) (wide wide' : Bool) (mem : Int → K) (v : View) (hw : v.WF)
    (rest : List Nat) (last : Nat) (hlt : ∀ a ∈ rest, a < v.shape.length) (hl : last < v.shape.length) (hnot : last ∉ rest)
    (hsz : 0 < size v.shape) (heven : v.shape.getD last 0 % 2 = 0) (hreal : RealElems σ (v.denote mem))
    (item : Nat) (hitem : 0 < item) :
    ∃ r r', rfftn P wide mem v (some (rest ++ [last])) = .ok r ∧
      irfftn P wide' (r.mem item 0) (r.view item) (some v.shape) (some (rest ++ [last])) = .ok r' ∧ r'.Is (v.denote mem) := by
  obtain ⟨r, h1, h2⟩ := C63_rfftn hE wide mem v hw rest last hlt hl hsz
  have hsplit : size v.shape = size (v.shape.eraseIdx last) * v.shape.getD last 0 := by
    rw [← size_set_getD hl, Rumpy.set_getD_self hl]
  set n := v.shape.getD last 0 with hn
  have hn0 : 0 < n := Nat.pos_of_ne_zero fun h => by rw [h, Nat.mul_zero] at hsplit; omega
  have he0 : 0 < size (v.shape.eraseIdx last) := Nat.pos_of_ne_zero fun h => by rw [h, Nat.zero_mul] at hsplit; omega
  obtain ⟨m, hm⟩ : ∃ m, n = 2 * m := ⟨n / 2, by omega⟩
  have hm0 : 0 < m := by omega
  rw [show n / 2 + 1 = m + 1 by omega] at h2
  set Y := ((v.denote mem).dftAxis w last).shorten last (m + 1) with hY
  set c := (rest.map fun a => v.shape.getD a 0).prod with hc
  have hYs : Y.shape = v.shape.set last (m + 1) := rfl
  have hrs : (r.view item).shape = v.shape.set last (m + 1) := h2.1.trans ((dft_shape _ _ _).trans hYs)
  have hlt' : ∀ a ∈ rest ++ [last], a < v.shape.length := by
    intro a ha
    rcases List.mem_append.1 ha with h | h
    · exact hlt a h
    · rw [List.mem_singleton.1 h]; exact hl
  have hgne : ∀ a, a ∈ rest → (v.shape.set last (m + 1)).getD a 0 = v.shape.getD a 0 := by
    intro a ha
    have : last ≠ a := by rintro rfl; exact hnot ha
    simp [List.getD, List.getElem?_set, this]
  have hfa := fftAxes_eq hE.inv rest (r.view item).shape ((r.view item).denote (r.mem item 0)).get
    (by rw [hrs, List.length_set]; exact hlt)
  set Z := ((⟨(r.view item).shape, ((r.view item).denote (r.mem item 0)).get⟩ : Nd K).dft (fun n => (w n)⁻¹) rest) with hZ
  have hZY : Z.Same (Y.scale (c : K)) := by
    have ha : Z.Same ((Y.dft w rest).dft (fun n => (w n)⁻¹) rest) :=
      dft_congr (fun n => (w n)⁻¹) rest (h2.denote hitem 0) (by
        intro x hx
        show x < (r.view item).shape.length
        rw [hrs, List.length_set]; exact hlt x hx)
    have hb := dft_opp hE.opp rest Y (by intro x hx; rw [hYs, List.length_set]; exact hlt x hx)
    have hcc : (rest.map fun x => Y.shape.getD x 0) = rest.map fun a => v.shape.getD a 0 :=
      List.map_congr_left fun a ha => by rw [hYs]; exact hgne a ha
    rw [hcc, ← hc] at hb
    exact ha.trans hb
  have hZs : Z.shape = v.shape.set last (m + 1) := hfa.2.trans hrs
  -- one lane
  have hlane : ∀ j, InShape v.shape j →
      (P.inv n (hermitian P.conj 0 (laneOf Z.get (m + 1) last (j.eraseIdx last)) (m + 1) n)).getD (j.getD last 0) 0
        = (n : K) * ((c : K) * (v.denote mem).get j) := by
    intro j hj
    have hjl : j.length = v.shape.length := hj.length_eq
    have hjn := inShape_getD hj hl
    set xs := laneOf (v.denote mem).get n last (j.eraseIdx last) with hxs
    have hxl : xs.length = n := by simp [hxs, laneOf]
    have hje := inShape_eraseIdx last hj
    have hjel : (j.eraseIdx last).length = v.shape.length - 1 := by rw [List.length_eraseIdx_of_lt (by omega)]; omega
    have hzl : laneOf Z.get (m + 1) last (j.eraseIdx last) = (List.range (m + 1)).map fun k => (c : K) * freq (w n) xs k := by
      apply List.map_congr_left
      intro k hk
      rw [List.mem_range] at hk
      have hin : InShape Z.shape ((j.eraseIdx last).insertIdx last k) := by
        rw [hZs]
        apply inShape_insertIdx (by simpa using hl)
        · rw [List.eraseIdx_set_eq]; exact hje
        · rw [getD_set_self hl]; exact hk
      rw [hZY.2 _ hin]
      show (c : K) * ((v.denote mem).dftAxis w last).get _ = _
      congr 1
      unfold Nd.dftAxis freq
      dsimp only
      rw [hxl]
      show (Finset.range (v.shape.getD last 0)).sum _ = _
      rw [← hn]
      apply Finset.sum_congr rfl
      intro i hi
      rw [Finset.mem_range] at hi
      rw [getD_insertIdx_self _ _ _ (by omega)]
      have hx : xs.getD i 0 = (v.denote mem).get ((j.eraseIdx last).insertIdx last i) := by
        rw [hxs]
        unfold laneOf
        exact getD_map_range (fun i => (v.denote mem).get ((j.eraseIdx last).insertIdx last i)) hi 0
      rw [hx, insertIdx_eraseIdx_set _ (by omega), insertIdx_eraseIdx_set _ (by omega), List.set_set]
      rfl
    have hxr : ∀ x ∈ xs, σ x = x := by
      intro x hx
      obtain ⟨i, hi, rfl⟩ := List.mem_map.1 hx
      exact hreal _ (inShape_insertIdx hl hje (List.mem_range.1 hi))
    have hroot := hE.root n hn0
    have hfill := fill_even σ (xs := xs) (w := w n) (by rw [hxl]; exact hroot) (hE.conj_root n hn0) hxr (m := m)
      (by omega) hm0 (c : K) (map_natCast σ c)
      (fun k => P.conj (((List.range (m + 1)).map fun k => (c : K) * freq (w n) xs k).getD k 0))
      (fun i => if i < m + 1 then ((List.range (m + 1)).map fun k => (c : K) * freq (w n) xs k).getD i 0 else 0)
      (fun k hk1 hk2 => by
        rw [getD_map_range _ (by omega), hE.conj])
      (fun k hk => by
        rw [if_pos (by omega), getD_map_range _ (by omega)])
    have hfilter : ((List.range (m + 1 - 1 - 1)).filter fun k => decide (n > k + 1)) = List.range (m - 1) := by
      rw [show m + 1 - 1 - 1 = m - 1 by omega, List.filter_eq_self]
      intro k hk
      rw [List.mem_range] at hk
      simp only [decide_eq_true_eq]
      omega
    have hh : hermitian P.conj 0 (laneOf Z.get (m + 1) last (j.eraseIdx last)) (m + 1) n
        = (List.range xs.length).map fun k => (c : K) * freq (w n) xs k := by
      unfold hermitian
      rw [hzl, hfilter, ← hfill, hm]
    have hinv := hE.inv ((List.range xs.length).map fun k => (c : K) * freq (w n) xs k)
    rw [List.length_map, List.length_range, hxl] at hinv
    have hi := dftList_inv (w := w n) (xs := xs) (by rw [hxl]; exact hroot) (c : K)
    rw [hxl] at hi
    rw [hh, hxl, hinv, hi, List.getD_eq_getElem _ _ (by rw [List.length_map, hxl]; exact hjn)]
    simp only [List.getElem_map, hxs, laneOf, List.getElem_range]
    congr 3
    rw [insertIdx_eraseIdx_set _ (by omega)]
    exact Rumpy.set_getD_self (by omega)
  have hl' : last < (v.shape.set last (m + 1)).length := by simpa using hl
  have hg1 : (v.shape.set last (m + 1)).getD last 0 = m + 1 := getD_set_self hl _
  have hback : (v.shape.set last (m + 1)).set last n = v.shape := by rw [List.set_set, hn]; exact Rumpy.set_getD_self hl
  have hrf := rfftAlongAxis_eq (s := v.shape.set last (m + 1)) hl' n 0 (fun xs => P.inv n (hermitian P.conj 0 xs (m + 1) n)) Z.get
    (by rw [List.eraseIdx_set_eq]; exact he0)
  rw [hback, hg1] at hrf
  have hout : ((indices v.shape).map fun j =>
      (P.inv n (hermitian P.conj 0 (laneOf Z.get (m + 1) last (j.eraseIdx last)) (m + 1) n)).getD (j.getD last 0) 0)
      = (indices v.shape).map fun j => (n : K) * ((c : K) * (v.denote mem).get j) :=
    List.map_congr_left fun j hj => hlane j (mem_indices.1 hj)
  rw [hout] at hrf
  have hbuf : fftAxes 0 P.inv (v.shape.set last (m + 1)) rest (toComplexBuffer wide' (r.mem item 0) (r.view item))
      = (indices (v.shape.set last (m + 1))).map Z.get := by
    have e := hfa.1
    rw [hrs] at e
    rw [toComplexBuffer_eq wide' (r.mem item 0) (v := r.view item) (View.WF.fresh _ _), hrs, e]
    unfold Nd.toList
    rw [hZs]
  have htot : ((rest ++ [last]).map fun ax => if ax = last then n else (v.shape.set last (m + 1)).getD ax 0).prod = c * n := by
    rw [List.map_append, List.prod_append]
    have : (rest.map fun ax => if ax = last then n else (v.shape.set last (m + 1)).getD ax 0) = rest.map fun a => v.shape.getD a 0 := by
      apply List.map_congr_left
      intro a ha
      rw [if_neg (by rintro rfl; exact hnot ha), hgne a ha]
    rw [this, ← hc]
    simp
  refine ⟨r, ⟨v.shape, ((indices v.shape).map fun j => (n : K) * ((c : K) * (v.denote mem).get j)).map fun x => P.re x * (1 / ((c * n : Nat) : K))⟩,
    h1, ?_, rfl, ?_⟩
  · unfold irfftn
    rw [hrs, List.length_set, if_neg (ne_zero_of_axes (by simp) hlt'), validateAxes_some (by simp) hlt']
    dsimp only
    rw [List.getLastD_concat, List.dropLast_concat, hg1, if_neg (by omega), if_pos hl, ← hn, if_neg (by omega), hbuf, hback, hrf]
    dsimp only
    rw [htot]
  · show List.map _ _ = (v.denote mem).toList
    unfold Nd.toList
    rw [List.map_map]
    apply List.map_congr_left
    intro j hj
    show P.re ((n : K) * ((c : K) * (v.denote mem).get j)) * (1 / ((c * n : Nat) : K)) = _
    rw [hE.re _ (by rw [map_mul, map_mul, map_natCast, map_natCast, hreal j (mem_indices.1 hj)])]
    have hn1 : (n : K) ≠ 0 := by exact_mod_cast (by omega : n ≠ 0)
    have hc1 : (c : K) ≠ 0 := by
      have : c ≠ 0 := by
        rw [hc, Ne, List.prod_eq_zero_iff]
        intro h0
        obtain ⟨a, ha, ha0⟩ := List.mem_map.1 h0
        have := inShape_getD (mem_indices.1 hj) (hlt a ha)
        omega
      exact_mod_cast this
    rw [Nat.cast_mul]
    field_simp

/-- C63 fails for odd lengths: `rfftn([1, 0, 0])` is `[1, 1]`, and `irfftn([1, 1], s=[3])` starts with `2/3`
instead of `1`, because the last negative frequency is left at zero. -/
theorem C63_irfftn_odd_counterexample [CharZero K] (hE : Exact P w σ) (wide : Bool) :
    rfftn P wide ((⟨[3], [1, 0, 0]⟩ : Arr K).mem 8 0) ((⟨[3], [1, 0, 0]⟩ : Arr K).view 8) (some [0]) = .ok ⟨[2], [1, 1]⟩ ∧
    ∃ r, irfftn P wide ((⟨[2], [1, 1]⟩ : Arr K).mem 8 0) ((⟨[2], [1, 1]⟩ : Arr K).view 8) (some [3]) (some [0]) = .ok r ∧
      r.shape = [3] ∧ r.data.head? = some (2 / 3) ∧ (2 / 3 : K) ≠ 1 := by
  refine ⟨?_, ?_⟩
  · unfold rfftn
    have hb := arr_list_buffer (K := K) wide (n := 3) (X := [1, 0, 0]) rfl (item := 8) (by omega)
    have hf := hE.fwd [(1 : K), 0, 0]
    simp only [List.length_cons, List.length_nil, Nat.zero_add, Nat.reduceAdd] at hf
    have hd : dftList (w 3) [(1 : K), 0, 0] = [1, 1, 1] := by
      simp [dftList, List.range_succ, Finset.sum_range_succ]
    rw [hb]
    have h := rfftAlongAxis_eq (s := [3]) (axis := 0) (by simp) 2 (0 : K) (P.fwd 3) (fun j => ([1, 0, 0] : List K).getD (j.getD 0 0) 0) (by decide)
    have e1 : (indices [3]).map (fun j => ([1, 0, 0] : List K).getD (j.getD 0 0) 0) = [1, 0, 0] := rfl
    have e2 : laneOf (fun j => ([1, 0, 0] : List K).getD (j.getD 0 0) 0) 3 0 [] = [1, 0, 0] := rfl
    rw [e1] at h
    have e3 : ((indices ([3].set 0 2)).map fun j : List Nat =>
        (P.fwd 3 (laneOf (fun j => ([1, 0, 0] : List K).getD (j.getD 0 0) 0) ([3].getD 0 0) 0 (j.eraseIdx 0))).getD (j.getD 0 0) 0) = [1, 1] := by
      show [(P.fwd 3 [1, 0, 0]).getD 0 0, (P.fwd 3 [1, 0, 0]).getD 1 0] = [1, 1]
      rw [hf, hd]
      rfl
    rw [e3] at h
    have hsh : ((⟨[3], [1, 0, 0]⟩ : Arr K).view 8).shape = [3] := rfl
    rw [hsh, if_neg (by decide), show validateAxes (some [0]) [3].length = some [0] from rfl]
    dsimp only [List.getLastD, List.getLast?, List.getD_cons_zero, List.dropLast, List.reverse]
    simp only [List.getLast_singleton, List.getD_cons_zero]
    rw [if_neg (by omega), show 3 / 2 + 1 = 2 from rfl]
    rw [h]
    rfl
  · have hb := arr_list_buffer (K := K) wide (n := 2) (X := [1, 1]) rfl (item := 8) (by omega)
    have h := rfftAlongAxis_eq (s := [2]) (axis := 0) (by simp) 3 (0 : K) (fun xs => P.inv 3 (hermitian P.conj 0 xs 2 3))
      (fun j => ([1, 1] : List K).getD (j.getD 0 0) 0) (by decide)
    have e1 : (indices [2]).map (fun j => ([1, 1] : List K).getD (j.getD 0 0) 0) = [1, 1] := rfl
    rw [e1] at h
    have hi := hE.inv [(1 : K), 1, 0]
    simp only [List.length_cons, List.length_nil, Nat.zero_add, Nat.reduceAdd] at hi
    have hd : (dftList (w 3)⁻¹ [(1 : K), 1, 0]).getD 0 0 = 2 := by
      simp [dftList, List.range_succ, Finset.sum_range_succ]
      norm_num
    unfold irfftn
    rw [hb]
    have hsh : ((⟨[2], [1, 1]⟩ : Arr K).view 8).shape = [2] := rfl
    rw [hsh, if_neg (by decide), show validateAxes (some [0]) [2].length = some [0] from rfl]
    dsimp only [List.getLastD, List.getLast?, List.getD_cons_zero, List.dropLast]
    simp only [List.getLast_singleton, List.getD_cons_zero]
    rw [if_neg (by omega), if_neg (by simp)]
    show ∃ r, (match rfftAlongAxis 0 (fun xs => P.inv 3 (hermitian P.conj 0 xs 2 3)) [2] ([2].set 0 3) 0 [1, 1] with
        | none => Outcome.panic
        | some out => Outcome.ok (⟨[3], out.map fun c => P.re c * (1 / ((3 : Nat) : K))⟩ : Arr K)) = _ ∧ _
    rw [h]
    refine ⟨_, rfl, rfl, ?_, by norm_num⟩
    show some (P.re ((P.inv 3 [1, 1, 0]).getD 0 0) * (1 / ((3 : Nat) : K))) = _
    rw [hi, hd, hE.re 2 (map_ofNat σ 2)]
    norm_num

/-- C63 fails for odd lengths with `hfft` too: `ihfft([3, 0, 0])` is `[1, 1]`, and `hfft([1, 1], 3)` starts with
`2` instead of `3`. -/
theorem C63_hfft_odd_counterexample [CharZero K] (hE : Exact P w σ) (wide : Bool) :
    ihfft1 P wide ((⟨[3], [3, 0, 0]⟩ : Arr K).mem 8 0) ((⟨[3], [3, 0, 0]⟩ : Arr K).view 8) = some ⟨[2], [1, 1]⟩ ∧
    ∃ r, hfft1 P wide ((⟨[2], [1, 1]⟩ : Arr K).mem 8 0) ((⟨[2], [1, 1]⟩ : Arr K).view 8) (some 3) = some r ∧
      r.shape = [3] ∧ r.data.head? = some 2 ∧ (2 : K) ≠ 3 := by
  refine ⟨?_, ?_⟩
  · have hb := arr_list_buffer (K := K) wide (n := 3) (X := [3, 0, 0]) rfl (item := 8) (by omega)
    have hf := hE.fwd [(3 : K), 0, 0]
    simp only [List.length_cons, List.length_nil, Nat.zero_add, Nat.reduceAdd] at hf
    have hd : dftList (w 3) [(3 : K), 0, 0] = [3, 3, 3] := by
      simp [dftList, List.range_succ, Finset.sum_range_succ]
    unfold ihfft1
    have hs : Rumpy.sizeOf ((⟨[3], [3, 0, 0]⟩ : Arr K).view 8).shape = 3 := rfl
    dsimp only
    rw [hb, hs, if_neg (by simp [Arr.view, View.fresh]), if_neg (by omega)]
    show some (⟨[2], ((P.fwd 3 [3, 0, 0]).map fun c => P.conj c * (1 / ((3 : Nat) : K))).take 2⟩ : Arr K) = _
    have h3 : (3 : K) * (1 / ((3 : Nat) : K)) = 1 := by norm_num
    rw [hf, hd, hE.conj]
    simp only [List.map_cons, List.map_nil, map_ofNat, h3]
    rfl
  · have hb := arr_list_buffer (K := K) wide (n := 2) (X := [1, 1]) rfl (item := 8) (by omega)
    have hi := hE.inv [(1 : K), 1, 0]
    simp only [List.length_cons, List.length_nil, Nat.zero_add, Nat.reduceAdd] at hi
    have hd : (dftList (w 3)⁻¹ [(1 : K), 1, 0]) = [2, 1 + (w 3)⁻¹, 1 + (w 3)⁻¹ ^ 2] := by
      simp [dftList, List.range_succ, Finset.sum_range_succ]
      norm_num
    unfold hfft1
    have hs : Rumpy.sizeOf ((⟨[2], [1, 1]⟩ : Arr K).view 8).shape = 2 := rfl
    dsimp only
    rw [hb, hs, if_neg (by simp [Arr.view, View.fresh]), if_neg (by omega)]
    have hc : P.conj 1 = 1 := by rw [hE.conj]; simp
    refine ⟨⟨[3], (P.inv 3 [P.conj 1, P.conj 1, 0]).map P.re⟩, rfl, rfl, ?_, by norm_num⟩
    rw [hc, hi, hd]
    show some (P.re 2) = some 2
    rw [hE.re 2 (map_ofNat σ 2)]

/-- The hypotheses are met: real data of shape `2 × 4` in the complex numbers, transformed along both axes. -/
example : ∃ P w σ, Exact (K := ℂ) P w σ ∧ ∃ r r',
    rfftn P false (fun p : Int => (p : ℂ)) (View.fresh [2, 4] 1) (some [0, 1]) = .ok r ∧
    irfftn P false (r.mem 16 0) (r.view 16) (some [2, 4]) (some [0, 1]) = .ok r' ∧
    r'.Is ((View.fresh [2, 4] 1).denote fun p : Int => (p : ℂ)) := by
  obtain ⟨P, w, σ, h⟩ := exact_complex
  exact ⟨P, w, σ, h, C63_irfftn_rfftn_partial h false false _ _ (View.WF.fresh _ _) [0] 1 (by simp [View.fresh]) (by simp [View.fresh])
    (by simp) (by decide) (by decide) (fun j _ => map_intCast σ _) 16 (by omega)⟩

end Props
