import Verif.Model.Builders
import Verif.Lemmas.Layout
import Verif.Lemmas.Grid
import Verif.Lemmas.Moments
import Verif.Props.Assign
import Mathlib.Tactic.Linarith
import Mathlib.Tactic.Ring
import Mathlib.Tactic.FieldSimp
import Mathlib.Algebra.Order.Archimedean.Basic
/-! # Lemmas for the index builders -/

namespace Rumpy
open Spec Props

/-! ### Iterators -/

theorem calls_next : ∀ (n : Nat) (it : NdIter), calls NdIter.next n it = odometer it.shape (min n (it.size - it.flat)) it.indices
  | 0, it => by rw [Nat.zero_min]; rfl
  | n + 1, it => by
    rw [calls]
    unfold NdIter.next
    by_cases h : it.flat ≥ it.size
    · rw [if_pos h, Nat.sub_eq_zero_of_le h, Nat.min_zero]; rfl
    · rw [if_neg h]
      have e : min (n + 1) (it.size - it.flat) = min n (it.size - (it.flat + 1)) + 1 := by omega
      rw [e]
      show _ :: _ = _ :: _
      congr 1
      exact calls_next n _

theorem calls_nextPair (conv : α → β) (h : Held α) : ∀ (n : Nat) (it : NdIter), calls (NdIter.nextPair conv h) n it =
    (odometer it.shape (min n (it.size - it.flat)) it.indices).map fun i => (i, conv (h.mem (h.view.offset + byteOffset i h.view.strides)))
  | 0, it => by rw [Nat.zero_min]; rfl
  | n + 1, it => by
    rw [calls]
    unfold NdIter.nextPair
    by_cases hf : it.flat ≥ it.size
    · rw [if_pos hf, Nat.sub_eq_zero_of_le hf, Nat.min_zero]; rfl
    · rw [if_neg hf]
      have e : min (n + 1) (it.size - it.flat) = min n (it.size - (it.flat + 1)) + 1 := by omega
      rw [e]
      show _ :: _ = _ :: _
      congr 1
      exact calls_nextPair conv h n _

theorem odometer_take (s : List Nat) : ∀ (n N : Nat) (idx : List Nat), odometer s (min n N) idx = (odometer s N idx).take n
  | 0, N, idx => by rw [Nat.zero_min]; rfl
  | n + 1, 0, idx => rfl
  | n + 1, N + 1, idx => by
    rw [Nat.add_min_add_right]
    show _ :: _ = _ :: _
    rw [odometer_take s n N]

/-! ### Open and dense axes -/

theorem rank_open {k d n : Nat} (hd : d < k) {idx : List Nat} (hi : InShape ((List.replicate k 1).set d n) idx) :
    idx.getD d 0 < n ∧ rank ((List.replicate k 1).set d n) idx = idx.getD d 0 := by
  have hl : idx.length = k := by rw [hi.length_eq]; simp
  have h1 : idx.getD d 0 < n := by
    have := inShape_getD hi (axis := d) (by simpa using hd)
    rwa [List.getD_eq_getElem (List.set _ _ _) _ (by simpa using hd), List.getElem_set_self] at this
  refine ⟨h1, ?_⟩
  have h2 := rank_axis k d n hd [] idx hl h1
  rwa [zipWith_bc_self hi] at h2

/-- A contiguous vector laid along one of `k` axes. -/
theorem open_one (a : Held α) (hw : a.view.WF) {n : Nat} (hs : a.view.shape = [n]) (hc : a.view.cFlag = true) {k d : Nat} (hd : d < k) :
    ∃ r, a.view.reshape ((List.replicate k 1).set d n) = some r ∧ r.WF ∧
      (r.denote a.mem).Same ⟨(List.replicate k 1).set d n, fun idx => a.nd.get [idx.getD d 0]⟩ := by
  have hr : a.view.reshape ((List.replicate k 1).set d n) =
      some (a.view.viewWith 0 ((List.replicate k 1).set d n) (cStrides ((List.replicate k 1).set d n) a.view.item)) := by
    unfold View.reshape
    rw [sizeOf_eq, sizeOf_eq, hs, size_axis _ _ _ hd]
    simp [hc, size]
  refine ⟨_, hr, View.WF.viewWith (cStrides_length _ _), rfl, ?_⟩
  intro idx hi
  have hi : InShape ((List.replicate k 1).set d n) idx := hi
  obtain ⟨h1, h2⟩ := rank_open hd hi
  show a.mem (a.view.offset + 0 + byteOffset idx (cStrides _ a.view.item)) = a.mem (a.view.addr [idx.getD d 0])
  rw [cFlag_addr hw hc (idx := [idx.getD d 0]) (by rw [hs]; exact ⟨h1, trivial⟩), hs, byteOffset_cStrides _ _ _ hi.length_eq, h2]
  simp [rank, size]
  congr 1
  ring

theorem ixLoop_ok (n : Nat) : ∀ (hs : List (Held α)) (i : Nat), i + hs.length ≤ n →
    (∀ h ∈ hs, h.view.WF ∧ h.view.shape.length = 1 ∧ h.view.cFlag = true) →
    ∃ rs, ixLoop n hs i = .ok rs ∧ rs.length = hs.length ∧
      ∀ (k : Nat) (h r : Held α), hs[k]? = some h → rs[k]? = some r →
        r.nd.Same ⟨(List.replicate n 1).set (i + k) (h.nd.shape.headD 0), fun idx => h.nd.get [idx.getD (i + k) 0]⟩
  | [], i, _, _ => ⟨[], rfl, rfl, by intro k h r hk; simp at hk⟩
  | h :: hs, i, hn, hall => by
    rw [List.length_cons] at hn
    obtain ⟨hw, hl, hc⟩ := hall h List.mem_cons_self
    obtain ⟨m, hm⟩ := List.length_eq_one_iff.1 hl
    obtain ⟨v, hv, vw, vs⟩ := open_one h hw hm hc (k := n) (d := i) (by omega)
    obtain ⟨rs, h1, h2, h3⟩ := ixLoop_ok n hs (i + 1) (by omega) fun x hx => hall x (List.mem_cons_of_mem _ hx)
    refine ⟨⟨h.mem, v⟩ :: rs, ?_, by simp [h2], ?_⟩
    · rw [ixLoop, if_neg (by simp [hl]), sizeOf_eq, hm]
      have : size [m] = m := by simp [size]
      rw [this, hv]
      dsimp only
      rw [h1]
    · intro k h' r hk hr
      rcases k with _ | k
      · simp only [List.getElem?_cons_zero, Option.some.injEq] at hk hr
        subst hk; subst hr
        have : h.nd.shape.headD 0 = m := by show h.view.shape.headD 0 = m; rw [hm]; rfl
        rw [this]
        exact vs
      · rw [List.getElem?_cons_succ] at hk hr
        have := h3 k h' r hk hr
        rwa [show i + 1 + k = i + (k + 1) by omega] at this

theorem held_list (x : List α) {item : Nat} (hitem : 0 < item) (zero : α) :
    (Held.of ⟨[x.length], x⟩ item zero).nd.Same ⟨[x.length], fun idx => x.getD (idx.getD 0 0) zero⟩ := by
  refine held_of_is ⟨rfl, ?_⟩ hitem zero
  show x = Nd.toList _
  unfold Nd.toList
  rw [indices_singleton, List.map_map]
  apply List.ext_getElem
  · simp
  · intro i h1 h2
    simp [List.getElem?_eq_getElem h1]

theorem getD_zipWith_one {s idx : List Nat} (hl : s.length = idx.length) {d : Nat} (hd : d < s.length) :
    (List.zipWith (fun e i => if e = 1 then 0 else i) s idx).getD d 0 = if s.getD d 0 = 1 then 0 else idx.getD d 0 := by
  rw [List.getD_eq_getElem _ _ (by simp; omega), List.getD_eq_getElem _ _ hd, List.getD_eq_getElem _ _ (by omega), List.getElem_zipWith]

theorem inShape_dense {lens idx : List Nat} (hi : InShape lens idx) (d : Nat) (hd : d < lens.length) :
    InShape ((List.replicate lens.length 1).set d (lens.getD d 0))
      (List.zipWith (fun e i => if e = 1 then 0 else i) ((List.replicate lens.length 1).set d (lens.getD d 0)) idx) := by
  rw [inShape_iff_getD]
  have hl := hi.length_eq
  refine ⟨by simp [hl], ?_⟩
  intro k hk
  have hk : k < lens.length := by simpa using hk
  rw [getD_zipWith_one (by simp [hl]) (by simpa using hk)]
  by_cases he : k = d
  · subst he
    have h1 : ((List.replicate lens.length 1).set k (lens.getD k 0)).getD k 0 = lens.getD k 0 := by
      rw [List.getD_eq_getElem _ _ (by simpa using hd), List.getElem_set_self]
    rw [h1]
    have := inShape_getD hi hd
    split <;> omega
  · have h1 : ((List.replicate lens.length 1).set d (lens.getD d 0)).getD k 0 = 1 := by
      rw [List.getD_eq_getElem _ _ (by simpa using hk), List.getElem_set_ne (Ne.symm he)]
      simp
    rw [h1, if_pos rfl]
    exact Nat.one_pos

theorem broadcasts_open {lens : List Nat} {d : Nat} (hd : d < lens.length) :
    BroadcastsTo ((List.replicate lens.length 1).set d (lens.getD d 0)) lens := by
  refine ⟨by simp, fun k hk => ?_⟩
  have hk' : k < lens.length := by simpa using hk
  unfold dimR
  rw [if_pos hk, if_pos hk']
  rw [show ((List.replicate lens.length 1).set d (lens.getD d 0)).length = lens.length by simp]
  by_cases he : lens.length - 1 - k = d
  · right
    rw [he]
    rw [List.getD_eq_getElem _ _ (by simpa using hd), List.getElem_set_self, List.getD_eq_getElem _ _ hd, List.getD_eq_getElem _ _ hd]
  · left
    rw [List.getD_eq_getElem _ _ (by simp; omega), List.getElem_set_ne (Ne.symm he)]
    simp

theorem bcast_axes_get {a : Nd α} {s t i : List Nat} (ha : a.shape = t) (hl : t.length = s.length) :
    (a.broadcast s).get i = a.get (List.zipWith (fun d i => if d = 1 then 0 else i) t i) := by
  show a.get _ = _
  rw [ha, hl, Nat.sub_self, List.drop_zero]

theorem gridLoop_ok {item : Nat} (hitem : 0 < item) (zero : α) (dense : Bool) (lens : List Nat) : ∀ (xs : List (List α)) (i : Nat),
    i + xs.length = lens.length → (∀ k, k < xs.length → lens.getD (i + k) 0 = (xs.getD k []).length) →
    ∃ rs, gridLoop item zero dense lens xs i = some rs ∧ rs.length = xs.length ∧
      ∀ (k : Nat) (x : List α) (r : Held α), xs[k]? = some x → rs[k]? = some r →
        r.nd.Same (if dense then denseAxis lens (i + k) x zero else openAxis lens.length (i + k) x zero)
  | [], i, _, _ => ⟨[], rfl, rfl, by intro k x r hk; simp at hk⟩
  | x :: xs, i, hn, hlen => by
    rw [List.length_cons] at hn
    have hx0 : lens.getD i 0 = x.length := by
      have := hlen 0 (by simp)
      rwa [Nat.add_zero] at this
    have hid : i < lens.length := by omega
    have hh := held_list x hitem zero
    obtain ⟨r, hr, rw', rs'⟩ := open_one (Held.of ⟨[x.length], x⟩ item zero) (held_of_wf _ _ _) (n := x.length) rfl rfl hid
    have hopen : (r.denote (Held.of ⟨[x.length], x⟩ item zero).mem).Same (openAxis lens.length i x zero) := by
      refine rs'.trans ⟨rfl, ?_⟩
      intro idx hi
      have h1 := (rank_open hid hi).1
      exact hh.2 [idx.getD i 0] ⟨h1, trivial⟩
    obtain ⟨qs, h1, h2, h3⟩ := gridLoop_ok hitem zero dense lens xs (i + 1) (by omega) (by
      intro k hk
      have := hlen (k + 1) (by simpa using hk)
      rw [show i + 1 + k = i + (k + 1) by omega, this]
      rfl)
    have hv : ∃ v, (if dense then r.broadcastTo lens else some r) = some v ∧
        (v.denote (Held.of ⟨[x.length], x⟩ item zero).mem).Same (if dense then denseAxis lens i x zero else openAxis lens.length i x zero) := by
      cases dense
      · exact ⟨r, rfl, hopen⟩
      · have hrs : r.shape = (List.replicate lens.length 1).set i (lens.getD i 0) := by
          rw [hx0]; exact rs'.1
        obtain ⟨b, hb⟩ := Option.isSome_iff_exists.1 ((C09_broadcast_to_succeeds_iff r rw' lens).2 (by rw [hrs]; exact broadcasts_open hid))
        refine ⟨b, hb, ?_⟩
        obtain ⟨-, h4⟩ := C09_broadcast_to (Held.of ⟨[x.length], x⟩ item zero).mem r b rw' lens hb
        refine h4.trans ⟨rfl, ?_⟩
        intro idx hi
        have hi : InShape lens idx := hi
        rw [bcast_axes_get (a := r.denote (Held.of ⟨[x.length], x⟩ item zero).mem) hrs (by simp)]
        have h5 := inShape_dense hi i hid
        rw [hopen.2 _ (by show InShape r.shape _; rw [hrs]; exact h5)]
        show x.getD (List.getD _ i 0) zero = x.getD (idx.getD i 0) zero
        rw [getD_zipWith_one (by simp [hi.length_eq]) (by simpa using hid)]
        have h6 : ((List.replicate lens.length 1).set i (lens.getD i 0)).getD i 0 = lens.getD i 0 := by
          rw [List.getD_eq_getElem _ _ (by simpa using hid), List.getElem_set_self]
        rw [h6]
        have := inShape_getD hi hid
        split
        · next he =>
          have : idx.getD i 0 = 0 := by omega
          rw [this]
        · rfl
    obtain ⟨v, hv1, hv2⟩ := hv
    refine ⟨⟨(Held.of ⟨[x.length], x⟩ item zero).mem, v⟩ :: qs, ?_, by simp [h2], ?_⟩
    · rw [gridLoop]
      rw [hx0, hr]
      dsimp only
      rw [hv1]
      dsimp only
      rw [h1]
      rfl
    · intro k x' r' hk hr'
      rcases k with _ | k
      · simp only [List.getElem?_cons_zero, Option.some.injEq] at hk hr'
        subst hk; subst hr'
        exact hv2
      · rw [List.getElem?_cons_succ] at hk hr'
        have := h3 k x' r' hk hr'
        rwa [show i + 1 + k = i + (k + 1) by omega] at this

/-! ### Ranges -/

theorem rangeLoop_spec (step : Int) (hstep : step ≠ 0) (stop : ℚ) : ∀ (fuel : Nat) (val : ℚ),
    (0 < step → stop ≤ val + fuel * step) → (step < 0 → val + fuel * step ≤ stop) → IsRange val stop step (rangeLoop step stop fuel val)
  | 0, val, h1, h2 => by
    have e : rangeLoop step stop 0 val = [] := rfl
    rw [e]
    refine ⟨?_, by intro i h; simp at h⟩
    intro i
    have hi : (0 : ℚ) ≤ i := by positivity
    constructor
    · intro h; simp at h
    · rintro (⟨hs, h⟩ | ⟨hs, h⟩)
      · have hs' : 0 < step := by exact_mod_cast hs
        have := h1 hs'
        push_cast at this
        nlinarith
      · have hs' : step < 0 := by exact_mod_cast hs
        have := h2 hs'
        push_cast at this
        nlinarith
  | fuel + 1, val, h1, h2 => by
    rcases lt_or_gt_of_ne hstep with hs | hs
    · have hsq : (step : ℚ) < 0 := by exact_mod_cast hs
      rw [rangeLoop, if_neg (by omega), if_pos hs]
      by_cases hv : val > stop
      · rw [if_pos hv]
        have ih := rangeLoop_spec step hstep stop fuel (val + step) (fun h => absurd h (by omega)) (fun _ => by
          have := h2 hs
          push_cast at this
          linarith)
        refine ⟨?_, ?_⟩
        · intro i
          rcases i with _ | i
          · simp only [List.length_cons, Nat.zero_lt_succ, Nat.cast_zero, zero_mul, add_zero, true_iff]
            exact .inr ⟨hsq, hv⟩
          · rw [List.length_cons, Nat.succ_lt_succ_iff, ih.1 i]
            have e : val + (step : ℚ) + (i : ℚ) * step = val + ((i + 1 : Nat) : ℚ) * step := by push_cast; ring
            rw [e]
        · intro i hi
          rcases i with _ | i
          · simp
          · rw [List.getElem_cons_succ, ih.2 i (by simpa using hi)]
            push_cast; ring
      · rw [if_neg hv]
        refine ⟨?_, by intro i h; simp at h⟩
        intro i
        have hi : (0 : ℚ) ≤ i := by positivity
        constructor
        · intro h; simp at h
        · rintro (⟨hs', h⟩ | ⟨_, h⟩)
          · linarith
          · push Not at hv
            nlinarith
    · have hsq : (0 : ℚ) < step := by exact_mod_cast hs
      rw [rangeLoop, if_pos hs]
      by_cases hv : val < stop
      · rw [if_pos hv]
        have ih := rangeLoop_spec step hstep stop fuel (val + step) (fun _ => by
          have := h1 hs
          push_cast at this
          linarith) (fun h => absurd h (by omega))
        refine ⟨?_, ?_⟩
        · intro i
          rcases i with _ | i
          · simp only [List.length_cons, Nat.zero_lt_succ, Nat.cast_zero, zero_mul, add_zero, true_iff]
            exact .inl ⟨hsq, hv⟩
          · rw [List.length_cons, Nat.succ_lt_succ_iff, ih.1 i]
            have e : val + (step : ℚ) + (i : ℚ) * step = val + ((i + 1 : Nat) : ℚ) * step := by push_cast; ring
            rw [e]
        · intro i hi
          rcases i with _ | i
          · simp
          · rw [List.getElem_cons_succ, ih.2 i (by simpa using hi)]
            push_cast; ring
      · rw [if_neg hv]
        refine ⟨?_, by intro i h; simp at h⟩
        intro i
        have hi : (0 : ℚ) ≤ i := by positivity
        constructor
        · intro h; simp at h
        · rintro (⟨_, h⟩ | ⟨hs', h⟩)
          · push Not at hv
            nlinarith
          · linarith

/-! ### The diagonal -/

theorem setElement_at {mem : Int → α} {v : View} (hs : Separate v) {i j : List Nat} (hi : InShape v.shape i) (hj : InShape v.shape j) (x : α) :
    setElement mem v i x (v.addr j) = if j = i then x else mem (v.addr j) := by
  unfold setElement
  by_cases h : j = i
  · subst h; rw [if_pos rfl, if_pos rfl]
  · rw [if_neg h, if_neg fun he => h (hs _ _ hj hi he)]

theorem setElement_foreign {mem : Int → α} {v : View} {i : List Nat} (hi : InShape v.shape i) (x : α) {p : Int} (hp : Foreign v p) :
    setElement mem v i x p = mem p := by
  unfold setElement
  rw [if_neg fun he => hp i hi he.symm]

theorem sub_div_succ (row m : Nat) : row + 1 - (row + 1) / (m + 1) = if row % (m + 1) < m then row - row / (m + 1) + 1 else row - row / (m + 1) := by
  have h1 := Nat.div_add_mod row (m + 1)
  have h2 : row % (m + 1) < m + 1 := Nat.mod_lt row (Nat.succ_pos m)
  have h3 : row / (m + 1) ≤ row := Nat.div_le_self _ _
  have h4 : (row + 1) / (m + 1) = if row % (m + 1) < m then row / (m + 1) else row / (m + 1) + 1 := by
    split
    · next h =>
      rw [Nat.div_eq_of_lt_le]
      · rw [Nat.mul_comm]; omega
      · rw [Nat.add_mul, Nat.mul_comm]; omega
    · next h =>
      rw [Nat.div_eq_of_lt_le]
      · rw [Nat.add_mul, Nat.mul_comm]; omega
      · rw [Nat.add_mul, Nat.add_mul, Nat.mul_comm]; omega
  rw [h4]
  split <;> omega

theorem fillRows_spec (wrap : Bool) {v : View} (hs : Separate v) (val : Held α) (hv : sizeOf val.view.shape ≠ 0) {nrows ncols : Nat}
    (hsh : v.shape = [nrows, ncols]) (minDim : Nat) : ∀ (fuel row : Nat) (mem : Int → α), row + fuel = nrows →
    ∃ m, fillRows wrap v val ncols minDim fuel row (row - row / (ncols + 1)) mem = some m ∧
      (∀ r c, r < nrows → c < ncols → m (v.addr [r, c]) =
        if row ≤ r ∧ (wrap = true ∨ r < max minDim (row + 1)) ∧ c = r % (ncols + 1) then
          valAt val ((r - r / (ncols + 1)) % sizeOf val.view.shape) else mem (v.addr [r, c])) ∧
      ∀ p, Foreign v p → m p = mem p
  | 0, row, mem, hn => by
    refine ⟨mem, rfl, ?_, fun _ _ => rfl⟩
    intro r c hr _
    rw [if_neg (by omega)]
  | fuel + 1, row, mem, hn => by
    have hrow : row < nrows := by omega
    have hkey : ∃ mem', (if row % (ncols + 1) < ncols then
          if sizeOf val.view.shape = 0 then none
          else some (setElement mem v [row, row % (ncols + 1)] (valAt val ((row - row / (ncols + 1)) % sizeOf val.view.shape)), row - row / (ncols + 1) + 1)
        else some (mem, row - row / (ncols + 1))) = some (mem', row + 1 - (row + 1) / (ncols + 1)) ∧
        (∀ r c, r < nrows → c < ncols → mem' (v.addr [r, c]) =
          if r = row ∧ c = row % (ncols + 1) then valAt val ((r - r / (ncols + 1)) % sizeOf val.view.shape) else mem (v.addr [r, c])) ∧
        ∀ p, Foreign v p → mem' p = mem p := by
      rw [sub_div_succ]
      by_cases hc : row % (ncols + 1) < ncols
      · rw [if_pos hc, if_neg hv, if_pos hc]
        have hin : InShape v.shape [row, row % (ncols + 1)] := by rw [hsh]; exact ⟨hrow, hc, trivial⟩
        refine ⟨_, rfl, ?_, fun p hp => setElement_foreign hin _ hp⟩
        intro r c hr hcc
        rw [setElement_at hs hin (by rw [hsh]; exact ⟨hr, hcc, trivial⟩)]
        by_cases he : r = row ∧ c = row % (ncols + 1)
        · rw [if_pos (by rw [he.1, he.2]), if_pos he, he.1]
        · rw [if_neg (by simpa using he), if_neg he]
      · rw [if_neg hc, if_neg hc]
        refine ⟨mem, rfl, ?_, fun _ _ => rfl⟩
        intro r c hr hcc
        rw [if_neg (by omega)]
    obtain ⟨mem', h1, h2, h3⟩ := hkey
    rw [fillRows]
    rw [h1]
    dsimp only
    by_cases hb : (!wrap && decide (row + 1 ≥ minDim)) = true
    · rw [if_pos hb]
      refine ⟨mem', rfl, ?_, h3⟩
      intro r c hr hc
      rw [h2 r c hr hc]
      simp only [Bool.and_eq_true, Bool.not_eq_true', decide_eq_true_eq] at hb
      by_cases he : r = row ∧ c = row % (ncols + 1)
      · rw [if_pos he, if_pos ⟨by omega, .inr (by omega), by rw [he.2, he.1]⟩]
      · rw [if_neg he, if_neg]
        rintro ⟨h4, h5, h6⟩
        rcases h5 with h5 | h5
        · rw [hb.1] at h5; exact absurd h5 (by simp)
        · apply he
          have : r = row := by omega
          exact ⟨this, by rw [h6, this]⟩
    · rw [if_neg hb]
      obtain ⟨m, h4, h5, h6⟩ := fillRows_spec wrap hs val hv hsh minDim fuel (row + 1) mem' (by omega)
      refine ⟨m, h4, ?_, fun p hp => (h6 p hp).trans (h3 p hp)⟩
      intro r c hr hc
      rw [h5 r c hr hc, h2 r c hr hc]
      by_cases he : r = row ∧ c = row % (ncols + 1)
      · rw [if_neg (by omega), if_pos he, if_pos ⟨by omega, .inr (by omega), by rw [he.2, he.1]⟩]
      · rw [if_neg he]
        simp only [Bool.and_eq_true, Bool.not_eq_true', decide_eq_true_eq, not_and] at hb
        by_cases hq : row + 1 ≤ r ∧ (wrap = true ∨ r < max minDim (row + 1 + 1)) ∧ c = r % (ncols + 1)
        · have hlim : wrap = true ∨ r < max minDim (row + 1) := by
            rcases hq.2.1 with h | h
            · exact .inl h
            · cases hw : wrap
              · have := hb hw
                exact .inr (by omega)
              · exact .inl rfl
          rw [if_pos hq, if_pos ⟨by omega, hlim, hq.2.2⟩]
        · rw [if_neg hq, if_neg]
          rintro ⟨h7, h8, h9⟩
          apply hq
          refine ⟨?_, ?_, h9⟩
          · rcases Nat.lt_or_ge row r with h | h
            · exact h
            · exfalso
              apply he
              have : r = row := by omega
              exact ⟨this, by rw [h9, this]⟩
          · rcases h8 with h | h
            · exact .inl h
            · exact .inr (by omega)

theorem fillAll_spec {v : View} (hs : Separate v) (val : Held α) (hv : sizeOf val.view.shape ≠ 0) :
    ∀ (fuel i : Nat) (mem : Int → α), (∀ k ∈ v.shape, i + fuel ≤ k) →
    ∃ m, fillAll v val fuel i mem = some m ∧
      (∀ idx, InShape v.shape idx → v.shape ≠ [] → m (v.addr idx) =
        if OnDiagonal (idx.headD 0) idx ∧ i ≤ idx.headD 0 ∧ idx.headD 0 < i + fuel then
          valAt val (idx.headD 0 % sizeOf val.view.shape) else mem (v.addr idx)) ∧
      ∀ p, Foreign v p → m p = mem p
  | 0, i, mem, _ => by
    refine ⟨mem, rfl, ?_, fun _ _ => rfl⟩
    intro idx _ _
    rw [if_neg (by omega)]
  | fuel + 1, i, mem, hk => by
    have hin : InShape v.shape (List.replicate v.shape.length i) := by
      rw [inShape_iff_getD]
      refine ⟨by simp, ?_⟩
      intro k hkl
      rw [List.getD_eq_getElem _ _ (by simpa using hkl), List.getElem_replicate, List.getD_eq_getElem _ _ hkl]
      have := hk _ (List.getElem_mem hkl)
      omega
    rw [fillAll, if_neg hv]
    obtain ⟨m, h1, h2, h3⟩ := fillAll_spec hs val hv fuel (i + 1)
      (setElement mem v (List.replicate v.shape.length i) (valAt val (i % sizeOf val.view.shape))) (fun k hkm => by have := hk k hkm; omega)
    refine ⟨m, h1, ?_, fun p hp => (h3 p hp).trans (setElement_foreign hin _ hp)⟩
    intro idx hi hne
    rw [h2 idx hi hne, setElement_at hs hin hi]
    have hlen := hi.length_eq
    have hrep : idx = List.replicate v.shape.length i ↔ OnDiagonal (idx.headD 0) idx ∧ idx.headD 0 = i := by
      constructor
      · intro he
        have h0 : 0 < v.shape.length := List.length_pos_iff.2 hne
        have hh : idx.headD 0 = i := by
          rw [he]
          obtain ⟨n, hn⟩ := Nat.exists_eq_succ_of_ne_zero h0.ne'
          rw [hn, List.replicate_succ]; rfl
        refine ⟨?_, hh⟩
        intro x hx
        rw [hh]
        rw [he] at hx
        exact (List.mem_replicate.1 hx).2
      · rintro ⟨hd, hh⟩
        rw [List.eq_replicate_iff]
        exact ⟨hlen, fun x hx => (hd x hx).trans hh⟩
    by_cases hA : OnDiagonal (idx.headD 0) idx
    · by_cases h4 : idx.headD 0 = i
      · rw [if_neg (by omega), if_pos (hrep.2 ⟨hA, h4⟩), if_pos ⟨hA, by omega, by omega⟩, h4]
      · rw [if_neg (c := idx = _) (fun he => h4 (hrep.1 he).2)]
        by_cases h5 : i + 1 ≤ idx.headD 0 ∧ idx.headD 0 < i + 1 + fuel
        · rw [if_pos ⟨hA, h5⟩, if_pos ⟨hA, by omega, by omega⟩]
        · rw [if_neg (fun h => h5 h.2), if_neg (fun h => h5 ⟨by omega, by omega⟩)]
    · rw [if_neg (fun h => hA h.1), if_neg (fun he => hA (hrep.1 he).1), if_neg (fun h => hA h.1)]

theorem foldl_min_le : ∀ (s : List Nat) (a : Nat), s.foldl min a ≤ a ∧ ∀ k ∈ s, s.foldl min a ≤ k
  | [], a => ⟨le_rfl, by simp⟩
  | x :: s, a => by
    obtain ⟨h1, h2⟩ := foldl_min_le s (min a x)
    refine ⟨h1.trans (Nat.min_le_left _ _), ?_⟩
    intro k hk
    rcases List.mem_cons.1 hk with rfl | hk
    · exact h1.trans (Nat.min_le_right _ _)
    · exact h2 k hk

theorem lt_foldl_min : ∀ (s : List Nat) (a x : Nat), x < a → (∀ k ∈ s, x < k) → x < s.foldl min a
  | [], a, x, h, _ => h
  | y :: s, a, x, h, hk => lt_foldl_min s (min a y) x (lt_min h (hk y List.mem_cons_self)) fun k hm => hk k (List.mem_cons_of_mem _ hm)

end Rumpy
