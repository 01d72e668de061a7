import Verif.Lemmas.Masked
import Verif.Lemmas.Index
import Verif.Props.Assign
import Verif.Props.Broadcast
/-!
# C71: extract, place, putmask, select, piecewise, resize, unstack, ediff1d
-/

namespace Props
open Spec Rumpy

/-- The condition is a bool array. -/
def IsBoolArray (c : Held Nat) : Prop := c.view.WF ∧ c.view.item = 1

/-- What a user sees of a condition, in row-major order. -/
def condList (c : Held Nat) : List Bool := c.nd.toList.map (· != 0)

theorem length_condList (c : Held Nat) : (condList c).length = size c.view.shape := by
  unfold condList
  rw [List.length_map, Nd.length_toList]; rfl

/-! ### extract -/

/-- C71: `extract` returns the elements whose condition is true, in order, whatever the layouts and
the shapes, as long as the sizes agree. -/
theorem C71_extract_partial (conv : α → α) (c : Held Nat) (hc : IsBoolArray c) (h : Held α) (hw : h.view.WF)
    (hsz : size c.view.shape = size h.view.shape) (zero : α) :
    ∃ r, extract true conv c h zero = .ok r ∧ r.shape = [r.data.length] ∧ r.data = extracted (condList c) h.nd.toList := by
  unfold extract
  rw [sizeOf_eq, sizeOf_eq, if_neg (not_not.2 hsz)]
  dsimp only
  have hf : condFlags (c.view.cFlag && h.view.cFlag) c = condList c :=
    condFlags_eq hc.1 hc.2 (fun hh => by simp at hh; exact hh.1)
  have ha : flatAddrs (c.view.cFlag && h.view.cFlag) h.view = h.view.addrs :=
    flatAddrs_eq hw (fun hh => by simp at hh; exact hh.2)
  rw [hf, ha]
  have hlen : (condList c).length = h.view.addrs.length := by rw [length_condList, length_addrs hw, hsz]
  have hfil : (((condList c).zip h.view.addrs).filter (·.1)).length = (condList c).count true := by
    have : ∀ (l : List Bool) (m : List Int), l.length = m.length → ((l.zip m).filter (·.1)).length = l.count true := by
      intro l
      induction l with
      | nil => intro m _; simp
      | cons b l ih =>
        intro m hm
        cases m with
        | nil => simp at hm
        | cons x m =>
          have := ih m (by simpa using hm)
          cases b <;> simp [this]
    exact this _ _ hlen
  have hspec : (((condList c).zip h.view.addrs).filter (·.1)).map (fun x => h.mem x.2) = extracted (condList c) h.nd.toList := by
    unfold extracted
    have e : h.nd.toList = h.view.addrs.map h.mem := (addrs_map hw h.mem).symm
    rw [e, List.zip_map_right, List.filter_map, List.map_map]
    rfl
  split
  · next h0 =>
    refine ⟨_, rfl, by simp, ?_⟩
    dsimp only
    rw [h0] at hfil ⊢
    rw [← hspec, List.eq_nil_of_length_eq_zero hfil]; rfl
  · refine ⟨_, rfl, ?_⟩
    simp only [if_true]
    rw [packLoop_eq, writes_zipIdx (fun x : Bool × Int => h.mem x.2) _ _ (by rw [List.length_replicate, hfil]), hspec]
    refine ⟨?_, rfl⟩
    rw [← hspec, List.length_map, hfil]

example : ∃ (c : Held Nat) (h : Held Int), IsBoolArray c ∧ h.view.WF ∧ h.view.cFlag = false ∧
    extract true id c h 0 = .ok ⟨[2], [30, 10]⟩ :=
  ⟨⟨fun o => if o = 1 then 0 else 1, View.fresh [3] 1⟩, ⟨fun o => o / 8 * 10, ⟨24, [3], [-8], 8, false, false⟩⟩,
    ⟨View.WF.fresh _ _, rfl⟩, ⟨rfl, nofun, nofun⟩, rfl, by decide⟩

/-- C71: other sizes are refused. -/
theorem C71_extract_rejects (typed : Bool) (conv : α → α) (c : Held Nat) (h : Held α)
    (hsz : size c.view.shape ≠ size h.view.shape) (zero : α) : extract typed conv c h zero = .error := by
  unfold extract
  rw [sizeOf_eq, sizeOf_eq, if_pos hsz]

/-- C71 fails: a condition of another dtype is read byte by byte. The 64-bit integers `[0, 1]` (little
endian) select nothing; the elements of a complex array become zero (`conv`). -/
theorem C71_extract_counterexample :
    (Held.nd ⟨fun o => if o = 8 then 1 else 0, View.fresh [2] 8⟩).toList = [0, 1] ∧
    extract true id ⟨fun o => if o = 8 then 1 else 0, View.fresh [2] 8⟩ ⟨fun o => 10 + o / 8, View.fresh [2] 8⟩ 0 =
      .ok ⟨[0], ([] : List Int)⟩ ∧
    extract false (fun _ => 0) ⟨fun _ => 1, View.fresh [1] 1⟩ ⟨fun _ => (7 : Int), View.fresh [1] 16⟩ 0 = .ok ⟨[1], [0]⟩ := by
  decide

/-! ### place and putmask -/

/-- The values share no memory with the array. -/
def Apart (vals arr : View) : Prop := ∀ i, InShape vals.shape i → Foreign arr (vals.addr i)

theorem masked_addrs {arr : View} (hw : arr.WF) (hs : Separate arr) {flags : List Bool} (hl : flags.length = size arr.shape) :
    ((flags.zip arr.addrs).map (·.2)) = arr.addrs ∧ ((flags.zip arr.addrs).map (·.1)) = flags ∧ arr.addrs.Nodup := by
  refine ⟨?_, ?_, ?_⟩
  · exact List.map_snd_zip (by rw [length_addrs hw]; omega)
  · exact List.map_fst_zip (by rw [length_addrs hw]; omega)
  · rw [addrs_eq hw]
    refine List.Nodup.map_on ?_ (indices_nodup _)
    intro i hi j hj h
    exact hs i j (mem_indices.1 hi) (mem_indices.1 hj) h

theorem maskedStore_eq {loop : (Nat → Int) → Nat → (α → α) → List (Bool × Int) → Nat → (Int → α) → (Int → α)}
    (same : Bool) (conv : α → α) {c : Held Nat} (hc : IsBoolArray c) {arr vals : View} (ha : arr.WF) (hv : vals.WF)
    (hsz : size c.view.shape = size arr.shape) (hne : size vals.shape ≠ 0) (mem : Int → α) :
    maskedStore loop true same conv c arr vals mem =
      .ok (loop (fun j => vals.addrs.getD j 0) (size vals.shape) id ((condList c).zip arr.addrs) 0 mem) := by
  unfold maskedStore
  rw [sizeOf_eq, sizeOf_eq, sizeOf_eq, if_neg (not_not.2 hsz), if_neg hne]
  dsimp only
  generalize hfd : (c.view.cFlag && arr.cFlag && vals.cFlag && same) = fast
  have hcf : fast = true → c.view.cFlag = true := by rw [← hfd]; intro h; simp at h; exact h.1.1.1
  have haf : fast = true → arr.cFlag = true := by rw [← hfd]; intro h; simp at h; exact h.1.1.2
  have hvf : fast = true → vals.cFlag = true := by rw [← hfd]; intro h; simp at h; exact h.1.2
  rw [condFlags_eq hc.1 hc.2 hcf, flatAddrs_eq ha haf, flatAddrs_eq hv hvf]
  cases fast <;> rfl

theorem addrs_getD_cycled {vals : View} (hv : vals.WF) (hne : size vals.shape ≠ 0) (mem : Int → α) (k : Nat) :
    some (mem (vals.addrs.getD (k % size vals.shape) 0)) = cycled (vals.denote mem).toList k := by
  have hlt : k % size vals.shape < vals.addrs.length := by
    rw [length_addrs hv]; exact Nat.mod_lt _ (Nat.pos_of_ne_zero hne)
  unfold cycled
  rw [← addrs_map hv, List.length_map, length_addrs hv, List.getElem?_map, List.getElem?_eq_getElem hlt]
  simp [List.getD_eq_getElem?_getD, List.getElem?_eq_getElem hlt]

theorem addrs_getD_mem {vals : View} (hv : vals.WF) {i : Nat} (hi : i < size vals.shape) :
    ∃ idx, InShape vals.shape idx ∧ vals.addrs.getD i 0 = vals.addr idx := by
  obtain ⟨idx, h1, rfl⟩ := exists_rank hi
  exact ⟨idx, h1, by rw [List.getD_eq_getElem?_getD, addrs_getElem? hv h1]; rfl⟩

theorem masked_facts {c : Held Nat} {arr vals : View} (ha : arr.WF) (hv : vals.WF) (hs : Separate arr) (hd : Apart vals arr)
    (hsz : size c.view.shape = size arr.shape) :
    (((condList c).zip arr.addrs).map (·.2)).Nodup ∧
      ∀ i, i < size vals.shape → vals.addrs.getD i 0 ∉ ((condList c).zip arr.addrs).map (·.2) := by
  obtain ⟨h1, h2, h3⟩ := masked_addrs ha hs (flags := condList c) (by rw [length_condList, hsz])
  rw [h1]
  refine ⟨h3, ?_⟩
  intro i hi hm
  obtain ⟨idx, hidx, he⟩ := addrs_getD_mem hv hi
  rw [he, addrs_eq ha] at hm
  obtain ⟨j, hj, hje⟩ := List.mem_map.1 hm
  exact hd idx hidx j (mem_indices.1 hj) hje

/-- The element at a position, seen through the memory after the loop. -/
theorem masked_result {c : Held Nat} {arr : View} (ha : arr.WF) (hs : Separate arr)
    (hsz : size c.view.shape = size arr.shape) {mem mem' : Int → α} (val : Nat → Option α)
    (hat : ∀ j p, ((condList c).zip arr.addrs)[j]? = some (true, p) → some (mem' p) = val j)
    (hother : ∀ p, (true, p) ∉ (condList c).zip arr.addrs → mem' p = mem p) :
    (arr.denote mem').toList.length = (arr.denote mem).toList.length ∧
      (∀ k x, (arr.denote mem).toList[k]? = some x →
        (arr.denote mem').toList[k]? = if (condList c)[k]? = some true then val k else some x) ∧
      ∀ p, Foreign arr p → mem' p = mem p := by
  obtain ⟨h1, h2, h3⟩ := masked_addrs ha hs (flags := condList c) (by rw [length_condList, hsz])
  refine ⟨by rw [Nd.length_toList, Nd.length_toList]; rfl, ?_, ?_⟩
  · intro k x hk
    have hkl : k < size arr.shape := by
      have := (List.getElem?_eq_some_iff.1 hk).1
      rwa [Nd.length_toList] at this
    obtain ⟨idx, hidx, rfl⟩ := exists_rank hkl
    have hx : x = mem (arr.addr idx) := by
      have := toList_getElem? (nd := arr.denote mem) hidx
      rw [show rank (arr.denote mem).shape idx = rank arr.shape idx from rfl, hk] at this
      exact Option.some.inj this
    have hnew : (arr.denote mem').toList[rank arr.shape idx]? = some (mem' (arr.addr idx)) :=
      toList_getElem? (nd := arr.denote mem') hidx
    rw [hnew]
    have hflen : rank arr.shape idx < (condList c).length := by rw [length_condList, hsz]; exact hkl
    have hzip : ((condList c).zip arr.addrs)[rank arr.shape idx]? = some ((condList c)[rank arr.shape idx], arr.addr idx) := by
      rw [List.getElem?_zip_eq_some]
      exact ⟨List.getElem?_eq_getElem hflen, addrs_getElem? ha hidx⟩
    rw [List.getElem?_eq_getElem hflen]
    cases hb : (condList c)[rank arr.shape idx]
    · rw [if_neg (by simp), hx]
      congr 1
      apply hother
      intro hm
      obtain ⟨j, hj⟩ := List.mem_iff_getElem?.1 hm
      have e1 : (((condList c).zip arr.addrs).map (·.2))[j]? = some (arr.addr idx) := by rw [List.getElem?_map, hj]; rfl
      have e2 : (((condList c).zip arr.addrs).map (·.2))[rank arr.shape idx]? = some (arr.addr idx) := by rw [List.getElem?_map, hzip]; rfl
      rw [h1] at e1 e2
      have hjl : j < arr.addrs.length := (List.getElem?_eq_some_iff.1 e1).1
      have hj2 := (List.getElem?_inj hjl h3).1 (e1.trans e2.symm)
      rw [hj2, hzip, hb] at hj
      simp at hj
    · rw [if_pos rfl]
      rw [hb] at hzip
      exact hat _ _ hzip
  · intro p hp
    apply hother
    intro hm
    have : p ∈ ((condList c).zip arr.addrs).map (·.2) := List.mem_map.2 ⟨_, hm, rfl⟩
    rw [h1, addrs_eq ha] at this
    obtain ⟨j, hj, hje⟩ := List.mem_map.1 this
    exact hp j (mem_indices.1 hj) hje

/-- C71: `place` stores the values one by one where the mask is true, repeating them, and changes
nothing else. -/
theorem C71_place_partial (same : Bool) (conv : α → α) (c : Held Nat) (hc : IsBoolArray c) (arr vals : View) (ha : arr.WF) (hv : vals.WF)
    (hs : Separate arr) (hd : Apart vals arr) (hsz : size c.view.shape = size arr.shape) (hne : size vals.shape ≠ 0) (mem : Int → α) :
    ∃ mem', place true same conv c arr vals mem = .ok mem' ∧
      IsPlaced (condList c) (vals.denote mem).toList (arr.denote mem).toList (arr.denote mem').toList ∧
      ∀ p, Foreign arr p → mem' p = mem p := by
  obtain ⟨h1, h2⟩ := masked_facts ha hv hs hd hsz
  refine ⟨_, maskedStore_eq same conv hc ha hv hsz hne mem, ?_⟩
  obtain ⟨r1, r2, r3⟩ := masked_result ha hs hsz
    (fun j => cycled (vals.denote mem).toList (((condList c).take j).count true))
    (fun j p hj => by
      rw [placeLoop_at (conv := id) (Nat.pos_of_ne_zero hne) _ 0 mem j p h1 h2 hj, ← addrs_getD_cycled hv hne mem,
        (masked_addrs ha hs (flags := condList c) (by rw [length_condList, hsz])).2.1, Nat.zero_add]
      rfl)
    (fun p hp => placeLoop_other _ 0 mem p hp)
  exact ⟨⟨r1, r2⟩, r3⟩

/-- C71: `putmask` stores, where the mask is true, the value at the same position in the repeated
values, and changes nothing else. -/
theorem C71_putmask_partial (same : Bool) (conv : α → α) (c : Held Nat) (hc : IsBoolArray c) (arr vals : View) (ha : arr.WF) (hv : vals.WF)
    (hs : Separate arr) (hd : Apart vals arr) (hsz : size c.view.shape = size arr.shape) (hne : size vals.shape ≠ 0) (mem : Int → α) :
    ∃ mem', putmask true same conv c arr vals mem = .ok mem' ∧
      IsPutmask (condList c) (vals.denote mem).toList (arr.denote mem).toList (arr.denote mem').toList ∧
      ∀ p, Foreign arr p → mem' p = mem p := by
  obtain ⟨h1, h2⟩ := masked_facts ha hv hs hd hsz
  refine ⟨_, maskedStore_eq same conv hc ha hv hsz hne mem, ?_⟩
  obtain ⟨r1, r2, r3⟩ := masked_result ha hs hsz
    (fun j => cycled (vals.denote mem).toList j)
    (fun j p hj => by
      rw [putmaskLoop_at (conv := id) (Nat.pos_of_ne_zero hne) _ 0 mem j p h1 h2 hj, ← addrs_getD_cycled hv hne mem, Nat.zero_add]
      rfl)
    (fun p hp => putmaskLoop_other _ 0 mem p hp)
  exact ⟨⟨r1, r2⟩, r3⟩

/-- What is seen of a view after an operation. -/
def seen (v : View) : Outcome (Int → α) → Option (List α)
  | .ok mem => some (v.denote mem).toList
  | _ => none

/-- Memory with the array `[0, 1, 2, 3]` and, from address 100 on, the values `[70, 80]`. -/
def placeMem (p : Int) : Int := if p < 100 then p / 8 else 70 + (p - 100) / 8 * 10

/-- The mask `[False, True, True, True]`. -/
def placeMask : Held Nat := ⟨fun o => if o = 0 then 0 else 1, View.fresh [4] 1⟩

/-- A view of `n` 8-byte elements from an address. -/
def vecAt (off : Int) (n : Nat) : View := ⟨off, [n], [8], 8, true, true⟩

example : seen (vecAt 0 4) (place true true id placeMask (vecAt 0 4) (vecAt 100 2) placeMem) = some [0, 70, 80, 70] ∧
    seen (vecAt 0 4) (putmask true true id placeMask (vecAt 0 4) (vecAt 100 2) placeMem) = some [0, 80, 70, 80] := by decide

example : (vecAt 0 4).WF ∧ Separate (vecAt 0 4) ∧ Apart (vecAt 100 2) (vecAt 0 4) := by
  refine ⟨⟨rfl, fun _ => by decide, fun _ => by decide⟩, ?_, ?_⟩
  · intro i j hi hj h
    match i, j, hi, hj with
    | [a], [b], _, _ =>
      simp [vecAt, View.addr, byteOffset] at h
      rw [h]
  · intro i hi j hj h
    match i, j, hi, hj with
    | [a], [b], ha, hb =>
      simp [vecAt, View.addr, byteOffset, InShape] at h ha hb
      omega

/-- C71 fails: on contiguous arrays of any other dtype (complex, float16, dates, strings) `place` and
`putmask` silently do nothing. -/
theorem C71_place_untyped_counterexample (conv : α → α) (c : Held Nat) (arr vals : View) (mem : Int → α)
    (h1 : c.view.cFlag = true) (h2 : arr.cFlag = true) (h3 : vals.cFlag = true) (hsz : size c.view.shape = size arr.shape) :
    place false true conv c arr vals mem = .ok mem ∧ putmask false true conv c arr vals mem = .ok mem := by
  unfold place putmask maskedStore
  rw [sizeOf_eq, sizeOf_eq, sizeOf_eq, h1, h2, h3]
  constructor <;> rw [if_neg (not_not.2 hsz)] <;> split <;> rfl

example : placeMask.view.cFlag = true ∧ (vecAt 0 4).cFlag = true ∧
    seen (vecAt 0 4) (place false true id placeMask (vecAt 0 4) (vecAt 100 2) placeMem) = some [0, 1, 2, 3] := by decide

/-- C71 fails: when the values are a reversed view of the array itself, elements that were already
replaced are read again. -/
theorem C71_putmask_overlap_counterexample :
    let rev : View := ⟨24, [4], [-8], 8, false, false⟩
    let all : Held Nat := ⟨fun _ => 1, View.fresh [4] 1⟩
    (rev.denote placeMem).toList = [3, 2, 1, 0] ∧
      seen (vecAt 0 4) (putmask true true id all (vecAt 0 4) rev placeMem) = some [3, 2, 2, 3] ∧
      ¬ IsPutmask (condList all) (rev.denote placeMem).toList ((vecAt 0 4).denote placeMem).toList [3, 2, 2, 3] := by
  refine ⟨by decide, by decide, ?_⟩
  intro h
  have := h.2 2 2 (by decide)
  revert this
  decide

/-! ### select -/

theorem selectAt_eq {s : List Nat} {i : List Nat} (hi : InShape s i) : ∀ (l : List (Held Nat × Held α)),
    (∀ x ∈ l, x.1.view.WF ∧ x.1.view.shape = s ∧ x.2.view.WF ∧ x.2.view.shape = s) →
    selectAt (rank s i) l = some ((l.find? fun x => x.1.nd.get i != 0).map fun x => x.2.nd.get i)
  | [], _ => rfl
  | (c, h) :: l, hl => by
    obtain ⟨h1, h2, h3, h4⟩ := hl (c, h) (by simp)
    have ih := selectAt_eq hi l fun x hx => hl x (by simp [hx])
    have e1 := addrs_getElem? h1 (i := i) (by rw [h2]; exact hi)
    have e2 := addrs_getElem? h3 (i := i) (by rw [h4]; exact hi)
    dsimp only at h2 h4
    rw [h2] at e1
    rw [h4] at e2
    unfold selectAt
    rw [e1]
    dsimp only
    rw [List.find?_cons]
    have ec : c.nd.get i = c.mem (c.view.addr i) := rfl
    by_cases hm : c.mem (c.view.addr i) ≠ 0
    · rw [if_pos hm, e2]
      have : (c.nd.get i != 0) = true := by rw [ec]; simpa using hm
      simp only [this]
      rfl
    · rw [if_neg hm, ih]
      have : (c.nd.get i != 0) = false := by rw [ec]; simpa using hm
      simp only [this]

/-- C71: `select` takes at each position the choice of the first true condition and the default where
none is true. (For conditions and choices of one shape and dtype.) -/
theorem C71_select_partial (conv : α → α) (s : List Nat) (conds : List (Held Nat)) (choices : List (Held α)) (dflt : α)
    (hne : conds ≠ []) (hlen : conds.length = choices.length) (hc : ∀ c ∈ conds, IsBoolArray c ∧ c.view.shape = s)
    (hx : ∀ h ∈ choices, h.view.WF ∧ h.view.shape = s) :
    ∃ r, select true conv conds choices dflt = .ok r ∧
      r.Is ⟨s, fun i => firstChoice ((conds.zip choices).map fun x => (x.1.nd.get i != 0, x.2.nd.get i)) dflt⟩ := by
  cases conds with
  | nil => exact absurd rfl hne
  | cons c₀ cs =>
    unfold select
    dsimp only
    rw [if_neg (not_not.2 hlen)]
    have hs0 : c₀.view.shape = s := (hc c₀ (by simp)).2
    have hall : ∀ x ∈ (c₀ :: cs).zip choices, x.1.view.WF ∧ x.1.view.shape = s ∧ x.2.view.WF ∧ x.2.view.shape = s := by
      intro x hxm
      have m1 := (List.of_mem_zip hxm).1
      have m2 := (List.of_mem_zip hxm).2
      exact ⟨(hc _ m1).1.1, (hc _ m1).2, (hx _ m2).1, (hx _ m2).2⟩
    have hm : (List.range (Rumpy.sizeOf c₀.view.shape)).mapM (fun i => selectAt i ((c₀ :: cs).zip choices)) =
        some ((indices s).map fun i => (((c₀ :: cs).zip choices).find? fun x => x.1.nd.get i != 0).map fun x => x.2.nd.get i) := by
      rw [sizeOf_eq, hs0, ← map_rank_indices, List.mapM_map]
      have : ∀ (l : List (List Nat)), (∀ i ∈ l, InShape s i) →
          l.mapM ((fun i => selectAt i ((c₀ :: cs).zip choices)) ∘ rank s) =
            some (l.map fun i => (((c₀ :: cs).zip choices).find? fun x => x.1.nd.get i != 0).map fun x => x.2.nd.get i) := by
        intro l
        induction l with
        | nil => intro _; rfl
        | cons i l ih =>
          intro hl
          rw [List.mapM_cons, ih fun j hj => hl j (by simp [hj])]
          have := selectAt_eq (hl i (by simp)) _ hall
          simp only [Function.comp_apply, this]
          rfl
      exact this _ fun i hi => mem_indices.1 hi
    rw [hm]
    refine ⟨_, rfl, hs0, ?_⟩
    dsimp only
    unfold Nd.toList
    rw [List.map_map]
    apply List.map_congr_left
    intro i _
    simp only [Function.comp_apply, if_true]
    unfold firstChoice
    rw [List.find?_map]
    simp only [Option.map_map]
    rfl

example : ∃ (c d : Held Nat) (x y : Held Int), IsBoolArray c ∧ IsBoolArray d ∧ x.view.WF ∧ y.view.WF ∧
    select true id [c, d] [x, y] (-1) = .ok ⟨[3], [0, 101, -1]⟩ :=
  ⟨⟨fun o => if o = 0 then 1 else 0, View.fresh [3] 1⟩, ⟨fun o => if o = 2 then 0 else 1, View.fresh [3] 1⟩,
    ⟨fun o => o / 8, View.fresh [3] 8⟩, ⟨fun o => 100 + o / 8, View.fresh [3] 8⟩,
    ⟨View.WF.fresh _ _, rfl⟩, ⟨View.WF.fresh _ _, rfl⟩, View.WF.fresh _ _, View.WF.fresh _ _, by decide⟩

/-- C71: an empty list of conditions, or lists of different length, are refused. -/
theorem C71_select_rejects (typed : Bool) (conv : α → α) (conds : List (Held Nat)) (choices : List (Held α)) (dflt : α)
    (h : conds = [] ∨ conds.length ≠ choices.length) : select typed conv conds choices dflt = .error := by
  cases conds with
  | nil => rfl
  | cons c cs =>
    unfold select
    dsimp only
    rw [if_pos (h.resolve_left (by simp))]

/-- C71 fails: conditions and choices are not broadcast. A choice with one element panics. -/
theorem C71_select_broadcast_counterexample :
    select true id [⟨fun _ => 1, View.fresh [2] 1⟩] [⟨fun _ => (5 : Int), View.fresh [1] 8⟩] 0 = .panic ∧
      (broadcastShapes [2] [1] = some [2]) := by decide

/-! ### piecewise -/

/-- The result of one position after some conditions: the first true one counts. -/
theorem piecePass_eq {s : List Nat} {c : Held Nat} (hc : c.view.WF) (hs : c.view.shape = s) (f : α → α) (x : Nd α) (hx : x.shape = s)
    (d : List Nat → Option α) :
    piecePass c f x.toList ((indices s).map d) =
      some ((indices s).map fun i => (d i).or (if c.nd.get i ≠ 0 then some (f (x.get i)) else none)) := by
  unfold piecePass
  have e : ((indices s).map d).zip x.toList = (indices s).map fun i => (d i, x.get i) := by
    unfold Nd.toList
    rw [hx, List.zip_map']
  rw [e]
  have key : ∀ (l : List (List Nat)) (o : Nat), (∀ j i, l[j]? = some i → InShape s i ∧ rank s i = o + j) →
      ((l.map fun i => (d i, x.get i)).zipIdx o).mapM (fun dxi : (Option α × α) × Nat =>
        match dxi.1.1 with
        | some y => some (some y)
        | none =>
          match c.view.addrs[dxi.2]? with
          | none => none
          | some o => some (if c.mem o ≠ 0 then some (f dxi.1.2) else none)) =
        some (l.map fun i => (d i).or (if c.nd.get i ≠ 0 then some (f (x.get i)) else none)) := by
    intro l
    induction l with
    | nil => intro o _; rfl
    | cons i l ih =>
      intro o hl
      obtain ⟨hi, hr⟩ := hl 0 i rfl
      have := ih (o + 1) fun j k hj => by
        obtain ⟨a, b⟩ := hl (j + 1) k (by simpa using hj)
        exact ⟨a, by omega⟩
      rw [List.map_cons, List.zipIdx_cons, List.mapM_cons, this]
      have ha := addrs_getElem? hc (i := i) (by rw [hs]; exact hi)
      rw [hs, hr, Nat.add_zero] at ha
      cases hd : d i with
      | some y => simp [hd]
      | none =>
        simp only [ha, hd, List.map_cons, Option.none_or]
        rfl
  have := key (indices s) 0 (by
    intro j i hj
    have hjl := (List.getElem?_eq_some_iff.1 hj).1
    rw [length_indices] at hjl
    obtain ⟨idx, h1, rfl⟩ := exists_rank hjl
    rw [indices_getElem?_rank h1] at hj
    have : idx = i := Option.some.inj hj
    rw [← this]
    exact ⟨h1, by omega⟩)
  exact this

theorem pieceLoop_eq {s : List Nat} (x : Nd α) (hx : x.shape = s) : ∀ (l : List (Held Nat × (α → α))),
    (∀ cf ∈ l, cf.1.view.WF ∧ cf.1.view.shape = s) → ∀ (d : List Nat → Option α),
    pieceLoop x.toList l ((indices s).map d) = some ((indices s).map fun i =>
      (d i).or ((l.find? fun cf => cf.1.nd.get i != 0).map fun cf => cf.2 (x.get i)))
  | [], _, d => by simp [pieceLoop]
  | (c, f) :: l, hl, d => by
    obtain ⟨h1, h2⟩ := hl (c, f) (by simp)
    unfold pieceLoop
    rw [piecePass_eq h1 h2 f x hx d]
    dsimp only
    rw [pieceLoop_eq x hx l (fun cf h => hl cf (by simp [h]))]
    congr 1
    apply List.map_congr_left
    intro i _
    rw [List.find?_cons]
    by_cases hm : c.nd.get i ≠ 0
    · have : (c.nd.get i != 0) = true := by simpa using hm
      simp only [this, if_pos hm]
      cases d i <;> simp
    · have : (c.nd.get i != 0) = false := by simpa using hm
      simp only [this, if_neg hm]
      cases d i <;> simp

/-- What `piecewise` computes: at each position the function of the first true condition; where none is
true, the extra function if there is one and zero otherwise. -/
theorem piecewise_eq (x : Held α) (hx : x.view.WF) (conds : List (Held Nat)) (funcs : List (α → α)) (zero : α)
    (hne : conds ≠ []) (hc : ∀ c ∈ conds, IsBoolArray c ∧ c.view.shape = x.view.shape)
    (hlen : funcs.length = conds.length ∨ funcs.length = conds.length + 1) :
    ∃ r, piecewise x conds funcs zero = .ok r ∧
      r.Is ⟨x.view.shape, fun i => firstChoice ((conds.zip funcs).map fun cf => (cf.1.nd.get i != 0, cf.2 (x.nd.get i)))
        (if h : conds.length < funcs.length then funcs[conds.length] (x.nd.get i) else zero)⟩ := by
  unfold piecewise
  rw [if_neg hne]
  dsimp only
  rw [if_neg (by omega), sizeOf_eq]
  have hrep : List.replicate (size x.view.shape) (none : Option α) = (indices x.view.shape).map fun _ => none := by
    rw [List.map_const', length_indices]
  rw [hrep, addrs_map hx x.mem, show (x.view.denote x.mem) = x.nd from rfl, pieceLoop_eq (s := x.view.shape) x.nd rfl (conds.zip funcs) (by
    intro cf hcf
    have := hc _ (List.of_mem_zip hcf).1
    exact ⟨this.1.1, this.2⟩)]
  refine ⟨_, rfl, rfl, ?_⟩
  dsimp only
  unfold Nd.toList
  dsimp only
  rw [show x.nd.shape = x.view.shape from rfl, List.zip_map', List.map_map]
  apply List.map_congr_left
  intro i _
  simp only [Function.comp_apply, Option.none_or]
  unfold firstChoice
  rw [List.find?_map]
  simp only [Option.map_map]
  congr 1
  by_cases h : conds.length < funcs.length
  · have h2 : funcs.length = conds.length + 1 := by omega
    rw [if_pos h2, dif_pos h, List.getD_eq_getElem?_getD, List.getElem?_eq_getElem h]
    rfl
  · have h2 : ¬ funcs.length = conds.length + 1 := by omega
    rw [if_neg h2, dif_neg h]

/-- C71: when at most one condition is true at each position, `piecewise` applies its function there,
and the extra function (or zero) where none is true. Missing: overlapping conditions, see
`C71_piecewise_counterexample`. -/
theorem C71_piecewise_partial (x : Held α) (hx : x.view.WF) (conds : List (Held Nat)) (funcs : List (α → α)) (zero : α)
    (hne : conds ≠ []) (hc : ∀ c ∈ conds, IsBoolArray c ∧ c.view.shape = x.view.shape)
    (hlen : funcs.length = conds.length ∨ funcs.length = conds.length + 1)
    (hex : ∀ i, InShape x.view.shape i → conds.Pairwise fun c d => ¬ (c.nd.get i ≠ 0 ∧ d.nd.get i ≠ 0)) :
    ∃ r, piecewise x conds funcs zero = .ok r ∧
      r.Is ⟨x.view.shape, fun i => lastChoice ((conds.zip funcs).map fun cf => (cf.1.nd.get i != 0, cf.2 (x.nd.get i)))
        (if h : conds.length < funcs.length then funcs[conds.length] (x.nd.get i) else zero)⟩ := by
  obtain ⟨r, h1, h2⟩ := piecewise_eq x hx conds funcs zero hne hc hlen
  refine ⟨r, h1, h2.congr ⟨rfl, ?_⟩⟩
  intro i hi
  dsimp only
  unfold lastChoice
  -- with at most one true condition the order does not matter
  have key : ∀ l : List (Bool × α), l.Pairwise (fun a b => ¬ (a.1 = true ∧ b.1 = true)) → l.find? (·.1) = l.reverse.find? (·.1) := by
    intro l
    induction l with
    | nil => intro _; rfl
    | cons a l ih =>
      intro hp
      rw [List.pairwise_cons] at hp
      rw [List.reverse_cons, List.find?_append, ← ih hp.2, List.find?_cons]
      cases ha : a.1
      · simp [ha]
      · have : l.find? (·.1) = none := by
          rw [List.find?_eq_none]
          intro b hb hb1
          exact hp.1 b hb ⟨ha, hb1⟩
        simp [this, ha]
  unfold firstChoice
  rw [key]
  have hp := hex i hi
  have hz : (conds.zip funcs).Pairwise fun a b => ¬ (a.1.nd.get i ≠ 0 ∧ b.1.nd.get i ≠ 0) := by
    have := List.pairwise_map (f := Prod.fst) (l := conds.zip funcs) (R := fun c d : Held Nat => ¬ (c.nd.get i ≠ 0 ∧ d.nd.get i ≠ 0))
    rw [List.map_fst_zip (by omega)] at this
    exact this.1 hp
  rw [List.pairwise_map]
  refine hz.imp ?_
  intro a b h hab
  apply h
  simpa using hab

example : ∃ (x : Held Int) (c d : Held Nat), x.view.WF ∧ IsBoolArray c ∧ IsBoolArray d ∧
    piecewise x [c, d] [fun a => a + 100, fun _ => 7, fun a => -a] 0 = .ok ⟨[3], [100, 7, -2]⟩ :=
  ⟨⟨fun o => o / 8, View.fresh [3] 8⟩, ⟨fun o => if o = 0 then 1 else 0, View.fresh [3] 1⟩, ⟨fun o => if o = 1 then 1 else 0, View.fresh [3] 1⟩,
    View.WF.fresh _ _, ⟨View.WF.fresh _ _, rfl⟩, ⟨View.WF.fresh _ _, rfl⟩, by decide⟩

/-- C71 fails: where two conditions are true the first one counts, not the last one. -/
theorem C71_piecewise_counterexample :
    let x : Held Int := ⟨fun o => o / 8, View.fresh [1] 8⟩
    let yes : Held Nat := ⟨fun _ => 1, View.fresh [1] 1⟩
    piecewise x [yes, yes] [fun _ => 1, fun _ => 2] 0 = .ok ⟨[1], [1]⟩ ∧ lastChoice [(true, (1 : Int)), (true, 2)] 0 = 2 := by
  decide

/-! ### resize -/

/-- C71: `resize` fills the new shape with the elements in row-major order, repeated as often as
needed; an empty array gives zeros. -/
theorem C71_resize (h : Held α) (hw : h.view.WF) (shape : List Nat) (zero : α) :
    (resizeArr h shape zero).shape = shape ∧ (resizeArr h shape zero).data.length = size shape ∧
      ∀ k, k < size shape → (resizeArr h shape zero).data[k]? = if size h.view.shape = 0 then some zero else cycled h.nd.toList k := by
  unfold resizeArr
  rw [sizeOf_eq, sizeOf_eq]
  dsimp only
  by_cases h0 : size shape = 0 ∨ size h.view.shape = 0
  · rw [if_pos h0]
    refine ⟨rfl, List.length_replicate, ?_⟩
    intro k hk
    have : size h.view.shape = 0 := by
      rcases h0 with h0 | h0
      · omega
      · exact h0
    rw [if_pos this]
    simp [hk]
  · rw [if_neg h0]
    push Not at h0
    have hcyc := fun k => addrs_getD_cycled hw h0.2 h.mem k
    have hfast : h.view.cFlag = true → ∀ j, j < size h.view.shape →
        h.view.offset + (j : Int) * (h.view.item : Int) = h.view.addrs.getD j 0 := by
      intro hc j hj
      obtain ⟨idx, h1, rfl⟩ := exists_rank hj
      rw [List.getD_eq_getElem?_getD, addrs_getElem? hw h1, cFlag_addr hw hc h1]; rfl
    have hdata : (if h.view.cFlag = true then
        (⟨shape, writes (((List.range (size shape / size h.view.shape)).flatMap fun t => (List.range (size h.view.shape)).map fun j =>
          (t * size h.view.shape + j, h.mem (h.view.offset + (j : Int) * (h.view.item : Int)))) ++
          (List.range (size shape % size h.view.shape)).map fun j =>
            ((size shape / size h.view.shape) * size h.view.shape + j, h.mem (h.view.offset + (j : Int) * (h.view.item : Int))))
          (List.replicate (size shape) zero)⟩ : Arr α)
        else ⟨shape, writes ((List.range (size shape)).map fun i => (i, h.mem (h.view.addrs.getD (i % size h.view.shape) 0)))
          (List.replicate (size shape) zero)⟩) =
        ⟨shape, (List.range (size shape)).map fun i => h.mem (h.view.addrs.getD (i % size h.view.shape) 0)⟩ := by
      generalize size h.view.shape = n at *
      generalize size shape = d at *
      have hn : 0 < n := Nat.pos_of_ne_zero h0.2
      by_cases hc : h.view.cFlag = true
      · rw [if_pos hc]
        congr 1
        rw [← writes_range (fun i => h.mem (h.view.addrs.getD (i % n) 0)) d (List.replicate d zero) List.length_replicate]
        congr 1
        have hd : d = d / n * n + d % n := by rw [Nat.mul_comm]; exact (Nat.div_add_mod d n).symm
        conv_rhs => rw [hd, List.range_add, ← range_runs, List.map_append, List.map_flatMap, List.map_map]
        congr 1
        · congr 1
          funext t
          rw [List.map_map]
          apply List.map_congr_left
          intro j hj
          have hj := List.mem_range.1 hj
          simp only [Function.comp_apply]
          rw [hfast hc j hj, Nat.add_comm (t * n) j, Nat.add_mul_mod_self_right, Nat.mod_eq_of_lt hj]
        · apply List.map_congr_left
          intro j hj
          have hj := List.mem_range.1 hj
          have hj2 : j < n := lt_trans hj (Nat.mod_lt _ hn)
          simp only [Function.comp_apply]
          rw [hfast hc j hj2, Nat.add_comm (d / n * n) j, Nat.add_mul_mod_self_right, Nat.mod_eq_of_lt hj2]
      · rw [if_neg hc, writes_range _ _ _ List.length_replicate]
    rw [hdata]
    refine ⟨rfl, by simp, ?_⟩
    intro k hk
    rw [if_neg h0.2, List.getElem?_map, List.getElem?_range hk]
    exact hcyc k

example : resizeArr ⟨fun o => o / 8, View.fresh [3] 8⟩ [2, 4] (0 : Int) = ⟨[2, 4], [0, 1, 2, 0, 1, 2, 0, 1]⟩ ∧
    resizeArr ⟨fun o => o / 8, ⟨16, [3], [-8], 8, false, false⟩⟩ [4] (0 : Int) = ⟨[4], [2, 1, 0, 2]⟩ := by decide

/-! ### unstack -/

/-- C71: for an axis in range, `unstack` returns the subarrays along the axis as views, in order.
Missing: reversed axes, see `C71_unstack_counterexample`. -/
theorem C71_unstack_partial {α : Type} (mem : Int → α) (v : View) (hw : v.WF) (axis : Int) (ax : Nat)
    (hax : axis = (ax : Int) ∨ axis = (ax : Int) - v.shape.length) (hlt : ax < v.shape.length) (hpos : 0 ≤ v.strides.getD ax 0) :
    ∃ vs, unstack v axis = .ok vs ∧ vs.length = v.shape.getD ax 0 ∧
      ∀ (k : Nat) (w : View), vs[k]? = some w → w.WF ∧ (w.denote mem).Same ((v.denote mem).atAxis ax k) := by
  unfold unstack
  rw [if_neg (by omega)]
  have hr : resolveAxis axis v.shape.length = some ax := by
    unfold resolveAxis
    dsimp only
    rcases hax with h | h
    · have h1 : ¬ axis < 0 := by omega
      rw [if_neg h1, if_neg (by omega)]
      congr 1; omega
    · have h1 : axis < 0 := by omega
      rw [if_pos h1, if_neg (by omega)]
      congr 1; omega
  rw [hr]
  dsimp only
  have hsl : v.shape[ax]? = some (v.shape.getD ax 0) := by
    rw [List.getD_eq_getElem?_getD, List.getElem?_eq_getElem hlt]; rfl
  have hlt2 : ax < v.strides.length := by rw [hw.len]; exact hlt
  have hst : v.strides[ax]? = some (v.strides.getD ax 0) := by
    rw [List.getD_eq_getElem?_getD, List.getElem?_eq_getElem hlt2]; rfl
  have hone : ∀ k : Nat, k < v.shape.getD ax 0 → ∃ w : View, ((v.sliceAxis ax (k : Int) ((k : Int) + 1) 1).map fun s => s.squeezeAxis ax) = some w ∧
      w.WF ∧ (w.denote mem).Same ((v.denote mem).atAxis ax k) := by
    intro k hk
    have hlen1 := sliceLen_one (k : Int)
    obtain ⟨w, h1, h2, h3, h4, h5, h6, h7⟩ := sliceAxis_denote mem (v := v) (axis := ax) (start := (k : Int)) (stop := (k : Int) + 1) (step := 1)
      (by norm_num) hsl hst (Or.inl hpos) (by intro j hj; omega)
    rw [hlen1] at h2 h6
    have hw1 : w.shape[ax]? = some 1 := by rw [h2]; simp [hlt]
    obtain ⟨q1, q2⟩ := C10_squeeze_axis mem w (h5 hw.len) ax hw1
    refine ⟨_, by rw [h1]; rfl, q1, ?_⟩
    refine ⟨?_, ?_⟩
    · rw [q2.1]
      show w.shape.eraseIdx ax = v.shape.eraseIdx ax
      rw [h2]
      exact List.eraseIdx_set_eq
    · intro idx hidx
      rw [q2.2 idx hidx]
      have hs2 : (w.squeezeAxis ax).shape = w.shape.eraseIdx ax := q2.1
      have hidx' : InShape (w.shape.eraseIdx ax) idx := hs2 ▸ hidx
      have hwl : ax < w.shape.length := by rw [h2, List.length_set]; exact hlt
      have hin : InShape w.shape (idx.insertIdx ax 0) := inShape_insertIdx hwl hidx' (by
        rw [List.getD_eq_getElem?_getD, hw1]; simp)
      show (w.denote mem).get (idx.insertIdx ax 0) = _
      rw [h6.2 _ hin]
      show (v.denote mem).get ((idx.insertIdx ax 0).modify ax _) = (v.denote mem).get (idx.insertIdx ax k)
      congr 1
      have hil : ax ≤ idx.length := by
        have := hidx'.length_eq
        rw [List.length_eraseIdx, if_pos hwl] at this
        omega
      clear hin hidx hidx' hs2
      revert hil
      generalize ax = a
      clear * -
      induction idx generalizing a with
      | nil => intro h; have : a = 0 := by simpa using h
               subst this; simp
      | cons x xs ih =>
        intro h
        cases a with
        | zero => simp
        | succ a =>
          simp only [List.insertIdx_succ_cons, List.modify_succ_cons]
          rw [ih a (by simpa using h)]
  have hmap : ∀ n, n ≤ v.shape.getD ax 0 → ∃ vs, (List.range n).mapM (fun (i : Nat) => (v.sliceAxis ax i (i + 1) 1).map fun s => s.squeezeAxis ax) = some vs ∧
      vs.length = n ∧ ∀ (k : Nat) (w : View), vs[k]? = some w → w.WF ∧ (w.denote mem).Same ((v.denote mem).atAxis ax k) := by
    intro n
    induction n with
    | zero => intro _; exact ⟨[], rfl, rfl, fun k w h => by simp at h⟩
    | succ n ih =>
      intro hn
      obtain ⟨vs, h1, h2, h3⟩ := ih (by omega)
      obtain ⟨w, e1, e2, e3⟩ := hone n (by omega)
      refine ⟨vs ++ [w], ?_, by simp [h2], ?_⟩
      · rw [List.range_succ, List.mapM_append, h1]
        simp [e1]
      · intro k u hk
        by_cases hkn : k < n
        · rw [List.getElem?_append_left (by omega)] at hk
          exact h3 k u hk
        · rw [List.getElem?_append_right (by omega)] at hk
          have hk0 : k = n := by
            by_contra hne
            have : 0 < k - vs.length := by omega
            rw [List.getElem?_eq_none (by simp; omega)] at hk
            cases hk
          subst hk0
          rw [h2, Nat.sub_self] at hk
          simp at hk
          rw [← hk]
          exact ⟨e2, e3⟩
  obtain ⟨vs, h1, h2, h3⟩ := hmap _ le_rfl
  rw [h1]
  exact ⟨vs, rfl, h2, h3⟩

example : ∃ vs, unstack (View.fresh [2, 3] 8) (-1) = .ok vs ∧ vs.length = 3 ∧
    vs.map (fun w => (w.denote fun o => o / 8).toList) = [[0, 3], [1, 4], [2, 5]] :=
  ⟨_, rfl, by decide, by decide⟩

/-- C71: an axis out of range and a 0-d array are refused. -/
theorem C71_unstack_rejects (v : View) (axis : Int) (h : v.shape.length = 0 ∨ axis < -(v.shape.length : Int) ∨ (v.shape.length : Int) ≤ axis) :
    unstack v axis = .error := by
  unfold unstack
  by_cases h0 : v.shape.length = 0
  · rw [if_pos h0]
  · rw [if_neg h0]
    have hr : resolveAxis axis v.shape.length = none := by
      unfold resolveAxis
      dsimp only
      split <;> rw [if_pos (by omega)]
    rw [hr]

/-- C71 fails: along a reversed axis the pieces lie outside the array, because slicing moves forward. -/
theorem C71_unstack_counterexample :
    ∃ vs, unstack ⟨8, [2], [-8], 8, false, false⟩ 0 = .ok vs ∧ vs.map (fun w => w.addr []) = [8, 16] ∧
      (View.addr ⟨8, [2], [-8], 8, false, false⟩ [1]) = 0 := ⟨_, rfl, by decide, by decide⟩

/-! ### ediff1d -/

/-- The values of an end, as a user sees them. -/
def endValues : DiffEnd α → List α
  | .none => []
  | .scalar x => [x]
  | .array h => h.nd.toList

/-- An end that is an array has a sound view. -/
def EndWF : DiffEnd α → Prop
  | .array h => h.view.WF
  | _ => True

/-- C71: `ediff1d` returns the differences of neighbours in row-major order, after the values given for
the beginning and before those for the end. -/
theorem C71_ediff1d_partial [Sub α] (h : Held α) (hw : h.view.WF) (toEnd toBegin : DiffEnd α) (he : EndWF toEnd) (hb : EndWF toBegin) (zero : α) :
    (ediff1d h toEnd toBegin zero).data = endValues toBegin ++ neighbourDiffs h.nd.toList ++ endValues toEnd ∧
      (ediff1d h toEnd toBegin zero).shape = [(ediff1d h toEnd toBegin zero).data.length] := by
  have hv : ∀ e : DiffEnd α, EndWF e → e.vals = endValues e := by
    intro e hw
    cases e with
    | none => rfl
    | scalar x => rfl
    | array g => exact addrs_map hw g.mem
  have hdiff : ((List.range (size h.view.shape - 1)).map fun i =>
      h.mem ((flatAddrs h.view.cFlag h.view).getD (i + 1) 0) - h.mem ((flatAddrs h.view.cFlag h.view).getD i 0)) = neighbourDiffs h.nd.toList := by
    rw [neighbourDiffs_eq zero, flatAddrs_eq hw id, Nd.length_toList]
    apply List.map_congr_left
    intro i hi
    have hi := List.mem_range.1 hi
    have e : h.nd.toList = h.view.addrs.map h.mem := (addrs_map hw h.mem).symm
    have l1 : i + 1 < h.view.addrs.length := by rw [length_addrs hw]; exact Nat.add_lt_of_lt_sub hi
    have l0 : i < h.view.addrs.length := by omega
    rw [e]
    simp [List.getD_eq_getElem?_getD, List.getElem?_eq_getElem l1, List.getElem?_eq_getElem l0]
  unfold ediff1d
  dsimp only
  rw [sizeOf_eq, hdiff, hv _ he, hv _ hb]
  have hlen : (neighbourDiffs h.nd.toList).length = size h.view.shape - 1 := by
    rw [← hdiff]; simp
  split
  · next h0 =>
    have e1 : endValues toBegin = [] := List.eq_nil_of_length_eq_zero (by omega)
    have e2 : endValues toEnd = [] := List.eq_nil_of_length_eq_zero (by omega)
    have e3 : neighbourDiffs h.nd.toList = [] := List.eq_nil_of_length_eq_zero (by omega)
    rw [e1, e2, e3]
    refine ⟨?_, ?_⟩
    · dsimp only
      rw [e1, e2] at h0
      simp only [h0, List.length_nil] at *
      simp [h0]
    · simp
  · have hw := writes_zipIdx (fun x : α => x) (endValues toBegin ++ neighbourDiffs h.nd.toList ++ endValues toEnd)
      (List.replicate ((endValues toBegin).length + (size h.view.shape - 1) + (endValues toEnd).length) zero)
      (by simp [hlen]; omega)
    rw [List.map_id'] at hw
    dsimp only
    rw [hw]
    refine ⟨rfl, ?_⟩
    simp [hlen]
    omega

example : (ediff1d ⟨fun o => (o / 8) * (o / 8), View.fresh [2, 2] 8⟩ (.scalar 100) (.array ⟨fun o => -o, View.fresh [2] 8⟩) (0 : Int)).data =
    [0, -8, 1, 3, 5, 100] := by decide

end Props
