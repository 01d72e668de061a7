import Verif.Lemmas.Archive
import Verif.Props.Io
import Mathlib.Data.Countable.Basic
import Mathlib.Logic.Encodable.Basic
import Mathlib.Logic.Equiv.List
/-!
# C98: archives of arrays

`np.savez`, `np.savez_compressed` and `np.load` of a `.npz` file.
-/

namespace Props
open Spec Rumpy

/-- The contract of the `zip` crate used here: reading back the file of an archive gives its entries, and such a file
begins with the letter `P`. -/
structure ZipContract (zip : List Entry → List UInt8) (unzip : List UInt8 → Option (List Entry)) : Prop where
  back : ∀ es, (es.map (·.1)).Nodup → unzip (zip es) = some es
  start : ∀ es, ∃ r, zip es = 0x50 :: r

/-- Some pair of functions meets the contract. -/
theorem zipContract_exists : ∃ zip unzip, ZipContract zip unzip := by
  have : Countable Char := ⟨Char.toNat, fun _ _ h => Char.ext (UInt32.toNat_inj.1 h)⟩
  have : Countable UInt8 := ⟨UInt8.toNat, fun _ _ h => UInt8.toNat_inj.1 h⟩
  obtain ⟨f, hf⟩ := (inferInstance : Countable (List Entry)).exists_injective_nat
  refine ⟨fun es => 0x50 :: List.replicate (f es) 0, fun bs => (Function.partialInv f) (bs.length - 1),
    ⟨fun es _ => ?_, fun es => ⟨_, rfl⟩⟩⟩
  simp only [List.length_cons, List.length_replicate, Nat.add_sub_cancel]
  exact Function.partialInv_left hf es

/-- An array that `save` and `load` restore (C46). -/
structure Restorable (a : Source) : Prop where
  notText : ¬ IsText a.dtype
  wf : a.view.WF
  item : a.view.item = DType.itemsize a.dtype
  aligned : (a.dtype = .f64 ∨ a.dtype = .i64) → ∀ s ∈ a.view.strides, (a.view.item : Int) ∣ s
  order : a.view.fFlag = true → a.view.cFlag = true
  dims : ∀ n ∈ a.view.shape, n < 2 ^ 64
  bytes : size a.view.shape * a.view.item < 2 ^ 64
  header : (npyHeader a.dtype a.view).length + 63 < 2 ^ 32

/-- The loaded array is this array: its dtype, its shape and all its elements. -/
def Restores (l : Loaded) (a : Source) : Prop := l.Holds a.dtype (bytesNd a.mem a.view)

/-- `k` is the name `n` without the endings `.npy`, however often that is repeated. -/
def Bare (n k : List Char) : Prop :=
  ∃ m, n = k ++ (List.replicate m ".npy".toList).flatten ∧ ¬ ".npy".toList <:+ k

theorem bare_unique {n k j : List Char} (hk : Bare n k) (hj : Bare n j) : k = j := by
  have key : ∀ (a : Nat) (k j : List Char) (b : Nat), k ++ (List.replicate a ".npy".toList).flatten = j ++ (List.replicate b ".npy".toList).flatten →
      ¬ ".npy".toList <:+ k → ¬ ".npy".toList <:+ j → k = j := by
    intro a
    induction a with
    | zero =>
      intro k j b h hk _
      cases b with
      | zero => simpa using h
      | succ b =>
        exfalso
        apply hk
        rw [List.replicate_zero, List.flatten_nil, List.append_nil, List.replicate_succ', List.flatten_append,
          ← List.append_assoc] at h
        exact ⟨j ++ (List.replicate b ".npy".toList).flatten, by rw [h]; simp⟩
    | succ a ih =>
      intro k j b h hk hj
      cases b with
      | zero =>
        exfalso
        apply hj
        rw [List.replicate_zero, List.flatten_nil, List.append_nil, List.replicate_succ', List.flatten_append,
          ← List.append_assoc] at h
        exact ⟨k ++ (List.replicate a ".npy".toList).flatten, by rw [← h]; simp⟩
      | succ b =>
        refine ih k j b ?_ hk hj
        rw [List.replicate_succ', List.replicate_succ', List.flatten_append, List.flatten_append, ← List.append_assoc,
          ← List.append_assoc] at h
        exact List.append_cancel_right h
  obtain ⟨a, ha, hk⟩ := hk
  obtain ⟨b, hb, hj⟩ := hj
  exact key a k j b (ha ▸ hb) hk hj

theorem bare_iff (n k : List Char) : Bare n k ↔ loadedName n = k := by
  constructor
  · intro h
    exact bare_unique (loadedName_spec n) h
  · rintro rfl
    exact loadedName_spec n

/-! ### Saving -/

/-- C98: saving succeeds exactly when no two of the arrays go by the same name; the positional ones go by `arr_0`,
`arr_1` and so on. -/
theorem C98_save_succeeds_iff (zip : List Entry → List UInt8) (fs : FileSystem) (path : List Char) (args : List Source)
    (kwargs : List (List Char × Source)) (hk : (kwargs.map (·.1)).Nodup) :
    (savez zip fs path args kwargs).2 = true ↔
      ∀ i < args.length, "arr_".toList ++ Nat.toDigits 10 i ∉ kwargs.map (·.1) := by
  have h : (savez zip fs path args kwargs).2 = (writeEntries (savezNames args kwargs) []).2 := rfl
  rw [h, (writeEntries_spec _ _).1]
  have hpos := positional_nodup args
  unfold savezNames at hpos ⊢
  rw [List.append_nil] at hpos
  rw [List.map_append, List.nodup_append]
  constructor
  · rintro ⟨⟨_, _, h⟩, _⟩ i hi hm
    refine h ("arr_".toList ++ showNat i) ?_ _ hm rfl
    rw [List.mem_map]
    exact ⟨_, List.mem_map.2 ⟨(args[i], i), List.mem_zipIdx_iff_getElem?.2 (List.getElem?_eq_getElem hi), rfl⟩, rfl⟩
  · intro h
    refine ⟨⟨hpos, hk, ?_⟩, by simp⟩
    intro a ha b hb hab
    subst hab
    obtain ⟨q, hq, rfl⟩ := List.mem_map.1 ha
    obtain ⟨p, hp, rfl⟩ := List.mem_map.1 hq
    have hi := List.mem_zipIdx_iff_getElem?.1 hp
    obtain ⟨hlt, _⟩ := List.getElem?_eq_some_iff.1 hi
    exact h p.2 hlt hb

/-- A matrix of `int16` and one of `float32`, for the examples. -/
def shorts : Source := ⟨countMem, .i16, ⟨0, [3, 2], [8, 4], 2, false, false⟩⟩

/-- A vector of `float32`, reversed. -/
def floats : Source := ⟨countMem, .f32, ⟨8, [3], [-4], 4, false, false⟩⟩

theorem shorts_restorable : Restorable shorts :=
  ⟨by simp [shorts, IsText], ⟨rfl, by simp [shorts], by simp [shorts]⟩, rfl, by simp [shorts], by simp [shorts], by simp [shorts],
    by decide, by decide +kernel⟩

theorem floats_restorable : Restorable floats :=
  ⟨by simp [floats, IsText], ⟨rfl, by simp [floats], by simp [floats]⟩, rfl, by simp [floats], by simp [floats], by simp [floats],
    by decide, by decide +kernel⟩

example (zip : List Entry → List UInt8) (fs : FileSystem) :
    (savez zip fs "a.npz".toList [shorts, floats] [("arr_2".toList, floats)]).2 = true ∧
    (savez zip fs "a.npz".toList [shorts, floats] [("arr_1".toList, floats)]).2 = false := by
  constructor
  · exact (C98_save_succeeds_iff zip fs _ _ _ (by decide)).2 (by decide)
  · rw [Bool.eq_false_iff]
    intro h
    exact (C98_save_succeeds_iff zip fs _ _ _ (by decide)).1 h 1 (by decide) (by decide)

/-- C98: saving touches no other file. -/
theorem C98_other_files (zip : List Entry → List UInt8) (fs : FileSystem) (path : List Char) (args : List Source)
    (kwargs : List (List Char × Source)) (p : List Char) (hp : p ≠ path) : (savez zip fs path args kwargs).1 p = fs p := by
  unfold savez FileSystem.put
  dsimp only
  rw [if_neg hp]

example (zip : List Entry → List UInt8) :
    (savez zip (fun _ => some [1, 2]) "a.npz".toList [shorts] []).1 "b.npz".toList = some [1, 2] :=
  C98_other_files _ _ _ _ _ _ (by decide)

/-- C98: a save that fails has already replaced the file: whatever was saved under the path before is lost, and the
arrays before the repeated name are in its place. -/
theorem C98_failed_save_counterexample (zip : List Entry → List UInt8) (fs : FileSystem) (path : List Char) (a b : Source) :
    (savez zip fs path [a] [("arr_0".toList, b)]).2 = false ∧
    (savez zip fs path [a] [("arr_0".toList, b)]).1 path = some (zip [("arr_0.npy".toList, writeNpy a.mem a.dtype a.view)]) := by
  have h : writeEntries (savezNames [a] [("arr_0".toList, b)]) [] =
      ([("arr_0.npy".toList, writeNpy a.mem a.dtype a.view)], false) := by
    have hn : savezNames [a] [("arr_0".toList, b)] = [("arr_0".toList, a), ("arr_0".toList, b)] := by
      show [("arr_".toList ++ showNat 0, a), ("arr_0".toList, b)] = _
      rw [show "arr_".toList ++ showNat 0 = "arr_0".toList by decide]
    rw [hn]
    unfold writeEntries
    rw [if_neg (by decide)]
    unfold writeEntries
    rw [if_pos (by
      rw [List.nil_append, List.any_cons, beq_self_eq_true]
      rfl), List.nil_append, show "arr_0".toList ++ npyExt = "arr_0.npy".toList by decide]
  unfold savez FileSystem.put
  dsimp only
  rw [h, if_pos rfl]
  exact ⟨rfl, rfl⟩

/-! ### Loading -/

/-- C98: loading an archive succeeds exactly when every entry that ends in `.npy` holds an array; the other entries are
passed over. -/
theorem C98_load_succeeds_iff (decode : List UInt8 → Option (List Char)) (es : List Entry) :
    (∃ l, loadNpz decode es = some l) ↔
      ∀ e ∈ es, ".npy".toList <:+ e.1 → ∃ r, readNpy decode e.2 = some r := by
  induction es with
  | nil => exact ⟨fun _ e he => absurd he (by simp), fun _ => ⟨[], rfl⟩⟩
  | cons e rest ih =>
    unfold loadNpz
    by_cases hs : npyExt.isSuffixOf e.1 = true
    · rw [if_neg (by rw [hs]; decide)]
      rw [List.forall_mem_cons, ← ih]
      constructor
      · rintro ⟨l, h⟩
        obtain ⟨r, hr, h⟩ := Option.bind_eq_some_iff.1 h
        obtain ⟨l', hl, _⟩ := Option.map_eq_some_iff.1 h
        exact ⟨fun _ => ⟨r, hr⟩, ⟨l', hl⟩⟩
      · rintro ⟨h1, l, h2⟩
        obtain ⟨r, hr⟩ := h1 (List.isSuffixOf_iff_suffix.1 hs)
        exact ⟨_, by rw [hr, h2]; rfl⟩
    · have hs' : npyExt.isSuffixOf e.1 = false := Bool.eq_false_iff.2 hs
      rw [if_pos (by rw [hs']; decide), ih, List.forall_mem_cons]
      constructor
      · intro h
        exact ⟨fun he => absurd (List.isSuffixOf_iff_suffix.2 he) hs, h⟩
      · exact fun h => h.2

example : ∃ l, loadNpz asciiDecode [("notes.txt".toList, [1, 2, 3])] = some l :=
  (C98_load_succeeds_iff _ _).2 (by
    intro e he hs
    rw [List.mem_singleton] at he
    subst he
    exact absurd (List.isSuffixOf_iff_suffix.2 hs) (by decide))

theorem read_entry {decode : List UInt8 → Option (List Char)} (hdec : DecodesAscii decode) {a : Source} (h : Restorable a) :
    ∃ l rest, readNpy decode (writeNpy a.mem a.dtype a.view) = some (l, rest) ∧ Restores l a := by
  obtain ⟨l, h1, h2⟩ := C46_save_load_partial hdec a.mem a.dtype h.notText a.view h.wf h.item h.aligned h.order h.dims h.bytes
    h.header []
  rw [List.append_nil] at h1
  exact ⟨l, _, h1, h2⟩

theorem load_entries {decode : List UInt8 → Option (List Char)} (hdec : DecodesAscii decode) (arrays : List (List Char × Source))
    (h : ∀ p ∈ arrays, Restorable p.2) :
    ∃ L, loadNpz decode (arrays.map entryOf) = some L ∧
      List.Forall₂ (fun (p : List Char × Source) (e : List Char × Loaded) => e.1 = loadedName p.1 ∧ Restores e.2 p.2) arrays L := by
  induction arrays with
  | nil => exact ⟨[], rfl, List.Forall₂.nil⟩
  | cons p rest ih =>
    obtain ⟨L, h1, h2⟩ := ih fun q hq => h q (List.mem_cons_of_mem _ hq)
    obtain ⟨l, r, h3, h4⟩ := read_entry hdec (h p List.mem_cons_self)
    refine ⟨(loadedName p.1, l) :: L, ?_, List.Forall₂.cons ⟨rfl, h4⟩ h2⟩
    rw [List.map_cons]
    unfold loadNpz
    have hs : npyExt.isSuffixOf (entryOf p).1 = true := List.isSuffixOf_iff_suffix.2 ⟨p.1, rfl⟩
    rw [if_neg (by rw [hs]; decide)]
    show (readNpy decode (writeNpy p.2.mem p.2.dtype p.2.view)).bind _ = _
    rw [h3, h1]
    show some ((loadedName (p.1 ++ npyExt), l) :: L) = _
    rw [loadedName_ext]

/-- The last of the arrays whose name without `.npy` is `k`. -/
def LastNamed (arrays : List (List Char × Source)) (k : List Char) (a : Source) : Prop :=
  ∃ before n after, arrays = before ++ (n, a) :: after ∧ Bare n k ∧ ∀ p ∈ after, ¬ Bare p.1 k

theorem find_last {arrays : List (List Char × Source)} {L : List (List Char × Loaded)}
    (h : List.Forall₂ (fun (p : List Char × Source) (e : List Char × Loaded) => e.1 = loadedName p.1 ∧ Restores e.2 p.2) arrays L)
    (k : List Char) :
    ((L.reverse.find? fun e => e.1 == k) = none → ∀ p ∈ arrays, ¬ Bare p.1 k) ∧
    (∀ e, (L.reverse.find? fun e => e.1 == k) = some e → ∃ a, LastNamed arrays k a ∧ Restores e.2 a) := by
  induction h with
  | nil => simp
  | @cons p e arrays L hpe hr ih =>
    rw [List.reverse_cons, List.find?_append]
    constructor
    · intro hn
      rw [Option.or_eq_none_iff] at hn
      rw [List.forall_mem_cons]
      refine ⟨fun hb => ?_, ih.1 hn.1⟩
      have := hn.2
      rw [List.find?_cons, hpe.1, (bare_iff _ _).1 hb] at this
      simp at this
    · intro x hx
      rw [Option.or_eq_some_iff] at hx
      rcases hx with hx | ⟨hn, hx⟩
      · obtain ⟨a, ⟨b, n, c, h1, h2, h3⟩, h4⟩ := ih.2 x hx
        exact ⟨a, ⟨p :: b, n, c, by rw [h1]; rfl, h2, h3⟩, h4⟩
      · rw [List.find?_cons] at hx
        split at hx
        · rename_i he
          obtain rfl := Option.some.inj hx
          refine ⟨p.2, ⟨[], p.1, arrays, rfl, ?_, ih.1 hn⟩, hpe.2⟩
          rw [bare_iff, ← hpe.1]
          exact beq_iff_eq.1 he
        · cases hx

/-- C98: what is loaded after a successful save.  Each name loads without its endings `.npy`, however many it has, and
gives the last of the arrays whose name came to the same; there are no other names. -/
theorem C98_loaded {decode : List UInt8 → Option (List Char)} (hdec : DecodesAscii decode) {zip : List Entry → List UInt8}
    {unzip : List UInt8 → Option (List Entry)} (hz : ZipContract zip unzip) (fs : FileSystem) (path : List Char)
    (hpath : ".npz".toList <:+ path) (args : List Source) (kwargs : List (List Char × Source))
    (hargs : ∀ a ∈ args, Restorable a) (hkw : ∀ p ∈ kwargs, Restorable p.2)
    (hok : (savez zip fs path args kwargs).2 = true) :
    ∃ d, load decode unzip (savez zip fs path args kwargs).1 path = some (.dict d) ∧ (d.map (·.1)).Nodup ∧
      ∀ k, (dictGet d k = none ↔ ∀ p ∈ savezNames args kwargs, ¬ Bare p.1 k) ∧
        ∀ l, dictGet d k = some l → ∃ a, LastNamed (savezNames args kwargs) k a ∧ Restores l a := by
  have hres : ∀ p ∈ savezNames args kwargs, Restorable p.2 := by
    intro p hp
    unfold savezNames at hp
    rcases List.mem_append.1 hp with hp | hp
    · obtain ⟨q, hq, rfl⟩ := List.mem_map.1 hp
      exact hargs _ (List.mem_of_getElem? (List.mem_zipIdx_iff_getElem?.1 hq))
    · exact hkw p hp
  have hok' : (writeEntries (savezNames args kwargs) []).2 = true := hok
  have hes : (writeEntries (savezNames args kwargs) []).1 = (savezNames args kwargs).map entryOf := by
    rw [(writeEntries_spec _ _).2 hok', List.nil_append]
  have hnd := ((writeEntries_spec _ _).1.1 hok').1
  obtain ⟨L, h1, h2⟩ := load_entries hdec _ hres
  have hfile : (savez zip fs path args kwargs).1 path = some (zip ((savezNames args kwargs).map entryOf)) := by
    unfold savez FileSystem.put
    dsimp only
    rw [if_pos rfl, hes]
  have hnd' : (((savezNames args kwargs).map entryOf).map (·.1)).Nodup := by
    rw [List.map_map]
    have : ((fun e : Entry => e.1) ∘ entryOf) = (fun n : List Char => n ++ npyExt) ∘ (fun p : List Char × Source => p.1) := rfl
    rw [this, ← List.map_map]
    exact hnd.map fun a b h => List.append_cancel_right h
  refine ⟨loadDict L, ?_, loadDict_keys L, fun k => ?_⟩
  · unfold load
    rw [hfile, Option.bind_some, if_pos (List.isSuffixOf_iff_suffix.2 hpath), hz.back _ hnd', Option.bind_some, h1]
    rfl
  · rw [loadDict_get]
    obtain ⟨h3, h4⟩ := find_last h2 k
    refine ⟨⟨fun h => h3 (Option.map_eq_none_iff.1 h), fun h => ?_⟩, fun l hl => ?_⟩
    · cases hf : L.reverse.find? (fun e => e.1 == k) with
      | none => rfl
      | some e =>
        obtain ⟨a, ⟨b, n, c, he, hb, _⟩, _⟩ := h4 e hf
        exact absurd hb (h (n, a) (by rw [he]; simp))
    · obtain ⟨e, he, rfl⟩ := Option.map_eq_some_iff.1 hl
      exact h4 e he

theorem bare_self {n : List Char} (h : ¬ ".npy".toList <:+ n) : Bare n n := ⟨0, by simp, h⟩

/-- C98 (partial): after a successful save, loading gives every array under the name it was saved under, and no other
names.  Missing: names that end in `.npy`; see the counterexample. -/
theorem C98_round_trip_partial {decode : List UInt8 → Option (List Char)} (hdec : DecodesAscii decode)
    {zip : List Entry → List UInt8} {unzip : List UInt8 → Option (List Entry)} (hz : ZipContract zip unzip) (fs : FileSystem)
    (path : List Char) (hpath : ".npz".toList <:+ path) (args : List Source) (kwargs : List (List Char × Source))
    (hargs : ∀ a ∈ args, Restorable a) (hkw : ∀ p ∈ kwargs, Restorable p.2)
    (hext : ∀ p ∈ kwargs, ¬ ".npy".toList <:+ p.1) (hok : (savez zip fs path args kwargs).2 = true) :
    ∃ d, load decode unzip (savez zip fs path args kwargs).1 path = some (.dict d) ∧ (d.map (·.1)).Nodup ∧
      (∀ i a, args[i]? = some a → ∃ l, dictGet d ("arr_".toList ++ Nat.toDigits 10 i) = some l ∧ Restores l a) ∧
      (∀ n a, (n, a) ∈ kwargs → ∃ l, dictGet d n = some l ∧ Restores l a) ∧
      ∀ k, dictGet d k ≠ none → (∃ i < args.length, k = "arr_".toList ++ Nat.toDigits 10 i) ∨ k ∈ kwargs.map (·.1) := by
  obtain ⟨d, h1, h2, h3⟩ := C98_loaded hdec hz fs path hpath args kwargs hargs hkw hok
  have hno : ∀ p ∈ savezNames args kwargs, ¬ ".npy".toList <:+ p.1 := by
    intro p hp
    unfold savezNames at hp
    rcases List.mem_append.1 hp with hp | hp
    · obtain ⟨q, hq, rfl⟩ := List.mem_map.1 hp
      exact positional_no_ext q.2
    · exact hext p hp
  have hnd := ((writeEntries_spec (savezNames args kwargs) []).1.1 hok).1
  have main : ∀ n a, (n, a) ∈ savezNames args kwargs → ∃ l, dictGet d n = some l ∧ Restores l a := by
    intro n a hm
    cases hg : dictGet d n with
    | none => exact absurd (bare_self (hno _ hm)) ((h3 n).1.1 hg _ hm)
    | some l =>
      refine ⟨l, rfl, ?_⟩
      obtain ⟨a', ⟨b, n', c, he, hb, _⟩, hr⟩ := (h3 n).2 l hg
      have hm' : (n', a') ∈ savezNames args kwargs := by rw [he]; simp
      have hn : n' = n := bare_unique (bare_self (hno _ hm')) hb
      subst hn
      have : a' = a := by
        have hinj := List.inj_on_of_nodup_map hnd hm' hm rfl
        exact congrArg Prod.snd hinj
      rw [← this]
      exact hr
  refine ⟨d, h1, h2, ?_, ?_, ?_⟩
  · intro i a hi
    refine main _ a (List.mem_append_left _ (List.mem_map.2 ⟨(a, i), List.mem_zipIdx_iff_getElem?.2 hi, rfl⟩))
  · exact fun n a hm => main n a (List.mem_append_right _ hm)
  · intro k hk
    by_contra hcon
    apply hk
    refine (h3 k).1.2 fun p hp hb => hcon ?_
    have hpk : p.1 = k := bare_unique (bare_self (hno p hp)) hb
    rcases List.mem_append.1 hp with hp | hp
    · obtain ⟨q, hq, rfl⟩ := List.mem_map.1 hp
      obtain ⟨hlt, _⟩ := List.getElem?_eq_some_iff.1 (List.mem_zipIdx_iff_getElem?.1 hq)
      exact Or.inl ⟨q.2, hlt, hpk.symm⟩
    · exact Or.inr (List.mem_map.2 ⟨p, hp, hpk⟩)

/-- Two matrices by position and one by name. -/
example {zip : List Entry → List UInt8} {unzip : List UInt8 → Option (List Entry)} (hz : ZipContract zip unzip) (fs : FileSystem) :
    ∃ d l, load asciiDecode unzip (savez zip fs "a.npz".toList [shorts, floats] [("x".toList, floats)]).1 "a.npz".toList =
      some (.dict d) ∧ dictGet d "arr_1".toList = some l ∧ Restores l floats := by
  obtain ⟨d, h1, _, h3, _, _⟩ := C98_round_trip_partial asciiDecode_ascii hz fs "a.npz".toList ⟨"a".toList, by decide⟩ [shorts, floats]
    [("x".toList, floats)] (by simp [shorts_restorable, floats_restorable]) (by simp [floats_restorable])
    (by
      intro p hp hs
      rw [List.mem_singleton] at hp
      subst hp
      exact absurd (List.isSuffixOf_iff_suffix.2 hs) (by decide))
    ((C98_save_succeeds_iff zip fs _ _ _ (by decide)).2 (by decide))
  obtain ⟨l, h4, h5⟩ := h3 1 floats rfl
  exact ⟨d, l, h1, h4, h5⟩

/-- C98: an array saved under a name that ends in `.npy` is not found under that name, and where another array is saved
under the name without it, one of the two is lost. -/
theorem C98_name_counterexample {decode : List UInt8 → Option (List Char)} (hdec : DecodesAscii decode)
    {zip : List Entry → List UInt8} {unzip : List UInt8 → Option (List Entry)} (hz : ZipContract zip unzip) (fs : FileSystem)
    (a b : Source) (ha : Restorable a) (hb : Restorable b) :
    ∃ d l, load decode unzip (savez zip fs "f.npz".toList [] [("x".toList, a), ("x.npy".toList, b)]).1 "f.npz".toList =
        some (.dict d) ∧ d.map (·.1) = ["x".toList] ∧ dictGet d "x.npy".toList = none ∧ dictGet d "x".toList = some l ∧ Restores l b := by
  have hok : (savez zip fs "f.npz".toList [] [("x".toList, a), ("x.npy".toList, b)]).2 = true :=
    (C98_save_succeeds_iff zip fs _ _ _ (by simp only [List.map_cons, List.map_nil]; decide)).2 (by simp)
  obtain ⟨L, h1, h2⟩ := load_entries hdec [("x".toList, a), ("x.npy".toList, b)] (by simp [ha, hb])
  cases h2 with
  | @cons _ e1 _ L1 he1 h2 =>
  cases h2 with
  | @cons _ e2 _ L2 he2 h2 =>
  cases h2
  obtain ⟨n1, l1⟩ := e1
  obtain ⟨n2, l2⟩ := e2
  obtain ⟨hn1, hr1⟩ := he1
  obtain ⟨hn2, hr2⟩ := he2
  have hn1' : n1 = "x".toList := hn1.trans (show loadedName "x".toList = "x".toList by decide)
  have hn2' : n2 = "x".toList := hn2.trans (show loadedName "x.npy".toList = "x".toList by decide)
  subst hn1'
  subst hn2'
  refine ⟨[("x".toList, l2)], l2, ?_, rfl, rfl, rfl, hr2⟩
  have hfile : (savez zip fs "f.npz".toList [] [("x".toList, a), ("x.npy".toList, b)]).1 "f.npz".toList =
      some (zip ([("x".toList, a), ("x.npy".toList, b)].map entryOf)) := rfl
  unfold load
  rw [hfile, Option.bind_some, if_pos (by decide), hz.back _ (by simp only [List.map_cons, List.map_nil, entryOf]; decide), Option.bind_some, h1]
  rfl

/-- C98: an archive saved under a path that does not end in `.npz` cannot be loaded from that path. -/
theorem C98_extension_counterexample (decode : List UInt8 → Option (List Char)) {zip : List Entry → List UInt8}
    {unzip : List UInt8 → Option (List Entry)} (hz : ZipContract zip unzip) (fs : FileSystem) (path : List Char)
    (hpath : ¬ ".npz".toList <:+ path) (args : List Source) (kwargs : List (List Char × Source)) :
    load decode unzip (savez zip fs path args kwargs).1 path = none := by
  have hfile : (savez zip fs path args kwargs).1 path = some (zip (writeEntries (savezNames args kwargs) []).1) := by
    unfold savez FileSystem.put
    dsimp only
    rw [if_pos rfl]
  unfold load
  rw [hfile, Option.bind_some, if_neg (fun h => hpath (List.isSuffixOf_iff_suffix.1 h)), Option.map_eq_none_iff]
  obtain ⟨r, hr⟩ := hz.start (writeEntries (savezNames args kwargs) []).1
  cases hread : readNpy decode (zip (writeEntries (savezNames args kwargs) []).1) with
  | none => rfl
  | some x =>
    obtain ⟨major, minor, rest, h, _⟩ := C46_accepted_starts hread
    rw [hr] at h
    exact absurd (List.cons.inj h).1 (by decide)

/-- The path `results`, to which NumPy adds `.npz`. -/
example {zip : List Entry → List UInt8} {unzip : List UInt8 → Option (List Entry)} (hz : ZipContract zip unzip) (fs : FileSystem) :
    load asciiDecode unzip (savez zip fs "results".toList [shorts] []).1 "results".toList = none :=
  C98_extension_counterexample _ hz fs _ (fun h => absurd (List.isSuffixOf_iff_suffix.2 h) (by decide)) _ _

/-- C98: a single array is restored from the path it was saved under, provided that path does not end in `.npz`. -/
theorem C98_single {decode : List UInt8 → Option (List Char)} (hdec : DecodesAscii decode)
    (unzip : List UInt8 → Option (List Entry)) (fs : FileSystem) (path : List Char) (hpath : ¬ ".npz".toList <:+ path)
    (a : Source) (ha : Restorable a) :
    ∃ l, load decode unzip (saveNpy fs path a) path = some (.array l) ∧ Restores l a := by
  obtain ⟨l, r, h1, h2⟩ := read_entry hdec ha
  refine ⟨l, ?_, h2⟩
  unfold load saveNpy FileSystem.put
  rw [if_pos rfl, Option.bind_some, if_neg (fun h => hpath (List.isSuffixOf_iff_suffix.1 h)), h1]
  rfl

example (unzip : List UInt8 → Option (List Entry)) (fs : FileSystem) :
    ∃ l, load asciiDecode unzip (saveNpy fs "results".toList shorts) "results".toList = some (.array l) ∧ Restores l shorts :=
  C98_single asciiDecode_ascii unzip fs _ (fun h => absurd (List.isSuffixOf_iff_suffix.2 h) (by decide)) _ shorts_restorable

end Props
