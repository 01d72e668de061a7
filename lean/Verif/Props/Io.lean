import Verif.Lemmas.Io
import Verif.Props.DType
/-!
# C46: files

`np.save` and `np.load`, `tofile` and `fromfile`, and `frombuffer`.
-/

namespace Props
open Spec Rumpy

/-- The contract of `String::from_utf8` used here: ASCII bytes are the characters with these codes. -/
def DecodesAscii (decode : List UInt8 → Option (List Char)) : Prop :=
  ∀ cs : List Char, (∀ c ∈ cs, c.toNat < 128) → decode (asciiBytes cs) = some cs

/-- The loaded array has this dtype, this shape and, at every index, these bytes. -/
def _root_.Rumpy.Loaded.Holds (l : Loaded) (d : DType) (nd : Nd (List UInt8)) : Prop :=
  l.dtype = d ∧ l.view.shape = nd.shape ∧ ∀ idx, InShape nd.shape idx → l.elem? (l.view.addr idx) = some (nd.get idx)

/-- The array held by a view of memory, element by element as bytes. -/
def bytesNd (mem : Int → UInt8) (v : View) : Nd (List UInt8) := v.denote (elemBytes mem v.item)

/-! ### The data -/

theorem contiguousBytes_eq (mem : Int → UInt8) (d : DType) {v : View} (hw : v.WF)
    (hal : (d = .f64 ∨ d = .i64) → ∀ s ∈ v.strides, (v.item : Int) ∣ s) :
    contiguousBytes mem d v = (bytesNd mem v).toList.flatten := by
  unfold contiguousBytes
  dsimp only
  split
  · rename_i hc
    have h := (copyArr_eq false (elemBytes mem v.item) hw (by simp) []).2
    unfold bytesNd
    rw [← h]
    unfold copyArr
    dsimp only
    split
    · rename_i h0
      simp [h0]
    · rw [range_blocks]
      congr 1
      refine List.map_congr_left fun i _ => ?_
      unfold elemBytes
      refine List.map_congr_left fun j _ => ?_
      congr 1
      push_cast
      ring
  · have h := (copyArr_eq (decide (d = .f64 ∨ d = .i64)) (elemBytes mem v.item) hw (by simpa using hal)
      (List.replicate v.item 0)).2
    rw [h]
    rfl

theorem toList_lengths (mem : Int → UInt8) (v : View) : ∀ x ∈ (bytesNd mem v).toList, x.length = v.item := by
  intro x hx
  unfold Nd.toList at hx
  rw [List.mem_map] at hx
  obtain ⟨idx, _, rfl⟩ := hx
  exact elemBytes_length _ _ _

theorem bytes_length (mem : Int → UInt8) (v : View) : (bytesNd mem v).toList.flatten.length = Rumpy.sizeOf v.shape * v.item := by
  rw [flatten_length_const (toList_lengths mem v), sizeOf_eq]
  simp [Nd.toList, length_indices, bytesNd, View.denote]

/-- A buffer with the elements in row-major order, seen through row-major strides. -/
theorem rowMajor_holds (mem : Int → UInt8) (v : View) (d : DType) (f : Bool) :
    Loaded.Holds ⟨d, ⟨0, v.shape, cStrides v.shape v.item, v.item, true, f⟩, (bytesNd mem v).toList.flatten⟩ d (bytesNd mem v) := by
  refine ⟨rfl, rfl, fun idx hi => ?_⟩
  have hi' : InShape v.shape idx := hi
  have ha := cFlag_addr (View.WF.fresh v.shape v.item) rfl (idx := idx) hi
  unfold View.addr at ha ⊢
  simp only [View.fresh] at ha
  dsimp only
  rw [ha]
  have hr := rank_lt hi'
  have hlen : (bytesNd mem v).toList.length = size v.shape := by simp [Nd.toList, length_indices, bytesNd, View.denote]
  unfold Loaded.elem?
  dsimp only
  have e : ((0 : Int) + (rank v.shape idx : Nat) * (v.item : Int)) = ((rank v.shape idx * v.item : Nat) : Int) := by push_cast; ring
  rw [e, Int.toNat_natCast, bytes_length, sizeOf_eq]
  have hb : rank v.shape idx * v.item + v.item ≤ size v.shape * v.item := by
    have := Nat.mul_le_mul_right v.item (Nat.succ_le_of_lt hr)
    rw [Nat.succ_mul] at this
    exact this
  rw [if_pos ⟨by omega, hb⟩, flatten_block (toList_lengths mem v) _ (by rw [hlen]; exact hr)]
  have := toList_getElem? (nd := bytesNd mem v) hi
  rw [← this]
  exact (List.getElem?_eq_getElem _).symm

/-! ### The header -/

/-- The text of the shape between the parentheses. -/
def dimsText (shape : List Nat) : List Char :=
  List.intercalate ", ".toList (shape.map showNat) ++ (if shape.length = 1 then [','] else [])

theorem dimsText_read (shape : List Nat) (h : ∀ n ∈ shape, n < 2 ^ 64) :
    ((dimsText shape).splitOn ',').filterMap shapeEntry = shape := by
  unfold dimsText
  split
  · rename_i h1
    obtain ⟨n, rfl⟩ := List.length_eq_one_iff.1 h1
    have : List.intercalate ", ".toList ([n].map showNat) = showNat n := by simp [List.intercalate]
    rw [this]
    exact read_dims_one n (h n (by simp))
  · rw [List.append_nil]
    exact read_dims shape h

theorem mem_intercalate {sep : List α} {l : List (List α)} {c : α} (h : c ∈ List.intercalate sep l) :
    c ∈ sep ∨ ∃ x ∈ l, c ∈ x := by
  induction l with
  | nil => simp [List.intercalate] at h
  | cons a l ih =>
    cases l with
    | nil => right; exact ⟨a, by simp, by simpa [List.intercalate] using h⟩
    | cons b l =>
      have e : List.intercalate sep (a :: b :: l) = a ++ (sep ++ List.intercalate sep (b :: l)) := by
        simp [List.intercalate]
      rw [e, List.mem_append, List.mem_append] at h
      rcases h with h | h | h
      · exact Or.inr ⟨a, by simp, h⟩
      · exact Or.inl h
      · rcases ih h with h | ⟨x, hx, hc⟩
        · exact Or.inl h
        · exact Or.inr ⟨x, by simp [hx], hc⟩

theorem dimsText_chars (shape : List Nat) : ∀ c ∈ dimsText shape, c.isDigit = true ∨ c = ',' ∨ c = ' ' := by
  intro c hc
  unfold dimsText at hc
  rcases List.mem_append.1 hc with h | h
  · rcases mem_intercalate h with h | ⟨x, hx, hcx⟩
    · right
      simpa using h
    · rw [List.mem_map] at hx
      obtain ⟨n, _, rfl⟩ := hx
      exact Or.inl (showNat_digits n c hcx)
  · split at h <;> simp_all

theorem takeWhile_append_stop {p : α → Bool} {l : List α} {x : α} (h : ∀ y ∈ l, p y = true) (hx : p x = false) (r : List α) :
    (l ++ x :: r).takeWhile p = l := by
  induction l with
  | nil => simp [List.takeWhile_cons, hx]
  | cons a l ih =>
    simp only [List.cons_append, List.takeWhile_cons, h a (by simp), if_true]
    rw [ih fun y hy => h y (by simp [hy])]

/-- The header with its two variable parts taken out. -/
def headText (t : List Char) (f : Bool) (dims : List Char) : List Char :=
  "{'descr': '".toList ++ t ++ "', 'fortran_order': ".toList ++ (if f then "True" else "False").toList ++
    ", 'shape': (".toList ++ dims ++ ")}".toList

theorem npyHeader_eq (d : DType) (v : View) :
    npyHeader d v = headText (DType.typestr d).toList (v.fFlag && !v.cFlag) (dimsText v.shape) := by
  unfold npyHeader headText dimsText
  simp only [List.append_assoc]

theorem typestr_plain (d : DType) : ∀ c ∈ (DType.typestr d).toList, c ≠ '\'' ∧ c ≠ '"' ∧ c.toNat < 128 := by
  cases d with
  | datetime u => cases u <;> decide +kernel
  | timedelta u => cases u <;> decide +kernel
  | str n => show ∀ c ∈ "<U0".toList, _; decide +kernel
  | bytes n => show ∀ c ∈ "|S0".toList, _; decide +kernel
  | _ => decide +kernel

theorem find_descr (t : List Char) (f : Bool) (dims : List Char) (ht : ∀ c ∈ t, c ≠ '\'' ∧ c ≠ '"') :
    extractString (headText t f dims) "descr".toList = some t := by
  unfold extractString headText
  have h := afterPattern_found "'descr': '".toList ['{']
    (t ++ "', 'fortran_order': ".toList ++ (if f then "True" else "False").toList ++
      ", 'shape': (".toList ++ dims ++ ")}".toList) (by decide +kernel)
  have e : ("{'descr': '".toList ++ t ++ "', 'fortran_order': ".toList ++ (if f then "True" else "False").toList ++
    ", 'shape': (".toList ++ dims ++ ")}".toList) = ['{'] ++ "'descr': '".toList ++
    (t ++ "', 'fortran_order': ".toList ++ (if f then "True" else "False").toList ++
      ", 'shape': (".toList ++ dims ++ ")}".toList) := by
    simp
  rw [e, List.findSome?_cons]
  have e2 : (['\''] ++ "descr".toList ++ "': '".toList) = "'descr': '".toList := by decide
  rw [e2, h]
  simp only [Option.bind_some]
  have e3 : t ++ "', 'fortran_order': ".toList ++ (if f then "True" else "False").toList ++
      ", 'shape': (".toList ++ dims ++ ")}".toList = t ++ '\'' :: (", 'fortran_order': ".toList ++
      (if f then "True" else "False").toList ++ ", 'shape': (".toList ++ dims ++ ")}".toList) := by simp
  rw [e3, if_pos (by simp), takeWhile_append_stop (fun y hy => by simp [ht y hy]) (by decide)]

/-- `'fortran_order': ` and `'shape': (` do not occur earlier in the header. -/
theorem no_earlier (d : DType) (f : Bool) :
    (∀ k < ("{'descr': '".toList ++ (DType.typestr d).toList ++ "', ".toList).length,
      ¬ "'fortran_order': ".toList <+:
        ("{'descr': '".toList ++ (DType.typestr d).toList ++ "', ".toList ++ "'fortran_order': ".toList).drop k) ∧
    ∀ k < ("{'descr': '".toList ++ (DType.typestr d).toList ++ "', 'fortran_order': ".toList ++
        (if f then "True" else "False").toList ++ ", ".toList).length,
      ¬ "'shape': (".toList <+:
        ("{'descr': '".toList ++ (DType.typestr d).toList ++ "', 'fortran_order': ".toList ++
          (if f then "True" else "False").toList ++ ", ".toList ++ "'shape': (".toList).drop k := by
  cases d with
  | datetime u => cases u <;> cases f <;> decide +kernel
  | timedelta u => cases u <;> cases f <;> decide +kernel
  | str n => show (∀ k < ("{'descr': '".toList ++ "<U0".toList ++ _).length, ¬ _ <+: ("{'descr': '".toList ++ "<U0".toList ++ _ ++ _).drop k) ∧ ∀ k < ("{'descr': '".toList ++ "<U0".toList ++ _ ++ _ ++ _).length, ¬ _ <+: ("{'descr': '".toList ++ "<U0".toList ++ _ ++ _ ++ _ ++ _).drop k; cases f <;> decide +kernel
  | bytes n => show (∀ k < ("{'descr': '".toList ++ "|S0".toList ++ _).length, ¬ _ <+: ("{'descr': '".toList ++ "|S0".toList ++ _ ++ _).drop k) ∧ ∀ k < ("{'descr': '".toList ++ "|S0".toList ++ _ ++ _ ++ _).length, ¬ _ <+: ("{'descr': '".toList ++ "|S0".toList ++ _ ++ _ ++ _ ++ _).drop k; cases f <;> decide +kernel
  | _ => cases f <;> decide +kernel

theorem find_fortran (d : DType) (f : Bool) (dims : List Char) :
    extractBool (headText (DType.typestr d).toList f dims) "fortran_order".toList = some f := by
  have h := afterPattern_found "'fortran_order': ".toList ("{'descr': '".toList ++ (DType.typestr d).toList ++ "', ".toList)
    ((if f then "True" else "False").toList ++ ", 'shape': (".toList ++ dims ++ ")}".toList) (no_earlier d f).1
  have e : headText (DType.typestr d).toList f dims =
      "{'descr': '".toList ++ (DType.typestr d).toList ++ "', ".toList ++ "'fortran_order': ".toList ++
        ((if f then "True" else "False").toList ++ ", 'shape': (".toList ++ dims ++ ")}".toList) := by
    unfold headText
    rw [show "', 'fortran_order': ".toList = "', ".toList ++ "'fortran_order': ".toList by decide +kernel]
    simp only [List.append_assoc]
  unfold extractBool
  rw [e, List.findSome?_cons]
  have e2 : (['\''] ++ "fortran_order".toList ++ "': ".toList) = "'fortran_order': ".toList := by decide +kernel
  rw [e2, h]
  simp only [Option.bind_some]
  cases f <;> simp

theorem find_shape (d : DType) (f : Bool) (shape : List Nat) (hs : ∀ n ∈ shape, n < 2 ^ 64) :
    extractShape (headText (DType.typestr d).toList f (dimsText shape)) = some shape := by
  have h := afterPattern_found "'shape': (".toList ("{'descr': '".toList ++ (DType.typestr d).toList ++
    "', 'fortran_order': ".toList ++ (if f then "True" else "False").toList ++ ", ".toList)
    (dimsText shape ++ ")}".toList) (no_earlier d f).2
  have e : headText (DType.typestr d).toList f (dimsText shape) =
      "{'descr': '".toList ++ (DType.typestr d).toList ++
        "', 'fortran_order': ".toList ++ (if f then "True" else "False").toList ++ ", ".toList ++ "'shape': (".toList ++
        (dimsText shape ++ ")}".toList) := by
    unfold headText
    rw [show ", 'shape': (".toList = ", ".toList ++ "'shape': (".toList by decide +kernel]
    simp only [List.append_assoc]
  unfold extractShape
  rw [e, List.findSome?_cons, h]
  simp only [Option.bind_some]
  have e3 : dimsText shape ++ ")}".toList = dimsText shape ++ ')' :: ['}'] :=
    congrArg (dimsText shape ++ ·) (by decide +kernel)
  have hp : ∀ c ∈ dimsText shape, (c != ')') = true := by
    intro c hc
    rcases dimsText_chars shape c hc with h | h | h
    · rw [bne_iff_ne]
      rintro rfl
      exact absurd h (by decide)
    · subst h; decide
    · subst h; decide
  rw [e3, if_pos (by simp), takeWhile_append_stop hp (by decide)]
  exact congrArg some (dimsText_read shape hs)

/-- The header is read back: dtype, shape and order. -/
theorem parse_header (d : DType) (hd : ¬ IsText d) (f : Bool) (shape : List Nat) (hs : ∀ n ∈ shape, n < 2 ^ 64)
    (pad : List Char) (hpad : ∀ c ∈ pad, isSpaceChar c = true) :
    parseNpyHeader (headText (DType.typestr d).toList f (dimsText shape) ++ pad) = some (d, shape, f) := by
  have ht : trimStr (headText (DType.typestr d).toList f (dimsText shape) ++ pad) =
      headText (DType.typestr d).toList f (dimsText shape) := by
    have e : headText (DType.typestr d).toList f (dimsText shape) =
        '{' :: ("'descr': '".toList ++ (DType.typestr d).toList ++ "', 'fortran_order': ".toList ++
          (if f then "True" else "False").toList ++ ", 'shape': (".toList ++ dimsText shape ++ [')']) ++ ['}'] := by
      unfold headText
      rw [show "{'descr': '".toList = '{' :: "'descr': '".toList by decide +kernel,
        show ")}".toList = [')'] ++ ['}'] by decide +kernel]
      simp only [List.append_assoc, List.cons_append]
    rw [e]
    unfold trimStr
    rw [List.cons_append, List.cons_append, List.dropWhile_cons_of_neg (by decide), ← List.cons_append, ← List.cons_append,
      List.reverse_append, List.dropWhile_append_of_pos (by simpa using hpad), List.reverse_append]
    rw [List.reverse_singleton, List.singleton_append, List.dropWhile_cons_of_neg (by decide)]
    simp
  unfold parseNpyHeader
  dsimp only
  rw [ht, find_descr _ _ _ fun c hc => ⟨(typestr_plain d c hc).1, (typestr_plain d c hc).2.1⟩]
  simp only [Option.bind_some]
  rw [String.ofList_toList, (C59_names_partial d hd).2]
  simp only [Option.bind_some]
  rw [find_fortran]
  simp only [Option.bind_some]
  rw [find_shape _ _ _ hs]
  rfl

/-! ### Saving and loading -/

/-- The padding of a header of this length. -/
def padText (n : Nat) : List Char :=
  let padding := (64 - ((10 + n) % 64)) % 64
  if padding > 0 then List.replicate (padding - 1) ' ' ++ ['\n'] else []

theorem padText_length (n : Nat) : (padText n).length = (64 - ((10 + n) % 64)) % 64 := by
  unfold padText
  dsimp only
  split
  · simp; omega
  · simp; omega

theorem padText_space (n : Nat) : ∀ c ∈ padText n, isSpaceChar c = true ∧ c.toNat < 128 := by
  intro c hc
  unfold padText at hc
  dsimp only at hc
  split at hc
  · rcases List.mem_append.1 hc with h | h
    · rw [(List.mem_replicate.1 h).2]; decide
    · rw [List.mem_singleton.1 h]; decide
  · simp at hc

/-- The whole header text: the dictionary and the padding. -/
def npyText (d : DType) (v : View) : List Char := npyHeader d v ++ padText (npyHeader d v).length

theorem npyText_ascii (d : DType) (v : View) : ∀ c ∈ npyText d v, c.toNat < 128 := by
  intro c hc
  unfold npyText at hc
  rw [npyHeader_eq] at hc
  rcases List.mem_append.1 hc with h | h
  · unfold headText at h
    simp only [List.mem_append] at h
    rcases h with (((((h | h) | h) | h) | h) | h) | h
    · exact (show ∀ c ∈ "{'descr': '".toList, c.toNat < 128 by decide +kernel) c h
    · exact (typestr_plain d c h).2.2
    · exact (show ∀ c ∈ "', 'fortran_order': ".toList, c.toNat < 128 by decide +kernel) c h
    · exact (show ∀ f : Bool, ∀ c ∈ (if f then "True" else "False").toList, c.toNat < 128 by decide +kernel) _ c h
    · exact (show ∀ c ∈ ", 'shape': (".toList, c.toNat < 128 by decide +kernel) c h
    · rcases dimsText_chars _ c h with h | h | h
      · simp only [Char.isDigit, Bool.and_eq_true, decide_eq_true_eq] at h
        have := UInt32.le_iff_toNat_le.1 h.2
        have e : ('9' : Char).val.toNat = 57 := rfl
        show c.val.toNat < 128
        omega
      · subst h; decide
      · subst h; decide
    · exact (show ∀ c ∈ ")}".toList, c.toNat < 128 by decide +kernel) c h
  · exact (padText_space _ c h).2

/-- The file as a sequence of fields. -/
theorem writeNpy_eq (mem : Int → UInt8) (d : DType) (v : View) :
    writeNpy mem d v = npyMagic ++ ((if (npyText d v).length > 65535 then [2, 0] ++ leBytes 4 (npyText d v).length
      else [1, 0] ++ leBytes 2 (npyText d v).length) ++ (asciiBytes (npyText d v) ++ contiguousBytes mem d v)) := by
  have hl : (npyText d v).length = (npyHeader d v).length + (64 - ((10 + (npyHeader d v).length) % 64)) % 64 := by
    unfold npyText
    rw [List.length_append, padText_length]
  have hp : asciiBytes (npyText d v) = asciiBytes (npyHeader d v) ++
      (if (64 - ((10 + (npyHeader d v).length) % 64)) % 64 > 0 then
        List.replicate ((64 - ((10 + (npyHeader d v).length) % 64)) % 64 - 1) 0x20 ++ [0x0A] else []) := by
    unfold npyText asciiBytes padText
    dsimp only
    split
    · simp only [List.map_append, List.map_replicate, List.map_cons, List.map_nil]
      rfl
    · simp
  unfold writeNpy
  dsimp only
  rw [← hl, hp]
  simp only [List.append_assoc]

/-- Reading the fields of a file whose header is ASCII text. -/
theorem read_fields {decode : List UInt8 → Option (List Char)} (hdec : DecodesAscii decode) (text : List Char)
    (hascii : ∀ c ∈ text, c.toNat < 128) (hlen : text.length < 2 ^ 32) (rest : List UInt8) :
    readNpy decode (npyMagic ++ ((if text.length > 65535 then [2, 0] ++ leBytes 4 text.length
      else [1, 0] ++ leBytes 2 text.length) ++ (asciiBytes text ++ rest))) =
      (parseNpyHeader text).bind fun h => npyArray h.1 h.2.1 h.2.2 rest := by
  unfold readNpy
  rw [readExact_append (by rfl)]
  simp only [Option.bind_some, ne_eq, not_true_eq_false, if_false]
  have hk : ∀ k bs, (asciiBytes text).length = k → readExact k (asciiBytes text ++ bs) = some (asciiBytes text, bs) :=
    fun k bs h => readExact_append h bs
  have hal : (asciiBytes text).length = text.length := by simp [asciiBytes]
  split
  · rw [List.append_assoc, readExact_append (by rfl)]
    simp only [Option.bind_some]
    unfold readHeaderLen
    rw [if_neg (by decide), if_pos (by decide), readExact_append (leBytes_length _ _), Option.map_some]
    simp only [Option.bind_some]
    rw [fromLe_leBytes _ _ (by exact hlen), hk _ _ hal]
    simp only [Option.bind_some]
    rw [hdec text hascii]
    rfl
  · rename_i h
    rw [List.append_assoc, readExact_append (by rfl)]
    simp only [Option.bind_some]
    unfold readHeaderLen
    rw [if_pos (by decide), readExact_append (leBytes_length _ _), Option.map_some]
    simp only [Option.bind_some]
    rw [fromLe_leBytes _ _ (by norm_num; omega), hk _ _ hal]
    simp only [Option.bind_some]
    rw [hdec text hascii]
    rfl

/-- C46 (partial): loading a saved array gives its dtype, its shape and all its elements, and leaves what follows in the
file.  Missing: arrays in column-major order only, and text dtypes; see the counterexamples. -/
theorem C46_save_load_partial {decode : List UInt8 → Option (List Char)} (hdec : DecodesAscii decode) (mem : Int → UInt8)
    (d : DType) (hd : ¬ IsText d) (v : View) (hw : v.WF) (hitem : v.item = DType.itemsize d)
    (hal : (d = .f64 ∨ d = .i64) → ∀ s ∈ v.strides, (v.item : Int) ∣ s)
    (hf : v.fFlag = true → v.cFlag = true) (hdims : ∀ n ∈ v.shape, n < 2 ^ 64) (hsize : size v.shape * v.item < 2 ^ 64)
    (hhead : (npyHeader d v).length + 63 < 2 ^ 32) (extra : List UInt8) :
    ∃ l, readNpy decode (writeNpy mem d v ++ extra) = some (l, extra) ∧ l.Holds d (bytesNd mem v) := by
  have hlen : (npyText d v).length < 2 ^ 32 := by
    unfold npyText
    rw [List.length_append, padText_length]
    omega
  have hnf : (v.fFlag && !v.cFlag) = false := by
    cases h1 : v.fFlag <;> cases h2 : v.cFlag <;> simp_all
  have hparse : parseNpyHeader (npyText d v) = some (d, v.shape, false) := by
    unfold npyText
    rw [npyHeader_eq, hnf]
    exact parse_header d hd false v.shape hdims _ fun c hc => (padText_space _ c hc).1
  rw [writeNpy_eq]
  simp only [List.append_assoc]
  rw [show ∀ (a b c : List UInt8), npyMagic ++ (a ++ (b ++ (c ++ extra))) = npyMagic ++ (a ++ (b ++ (c ++ extra))) from
    fun _ _ _ => rfl, read_fields hdec _ (npyText_ascii d v) hlen, hparse]
  simp only [Option.bind_some]
  unfold npyArray
  dsimp only
  have hb : (bytesNd mem v).toList.flatten.length = (Rumpy.sizeOf v.shape * DType.itemsize d) % 2 ^ 64 := by
    rw [bytes_length, ← hitem, Nat.mod_eq_of_lt]
    rw [sizeOf_eq]
    exact hsize
  rw [contiguousBytes_eq mem d hw hal, readExact_append hb]
  refine ⟨_, rfl, ?_⟩
  rw [← hitem]
  exact rowMajor_holds mem v d _

/-- Reading ASCII only. -/
def asciiDecode (bs : List UInt8) : Option (List Char) :=
  if bs.all (fun b => b.toNat < 128) then some (bs.map fun b => Char.ofNat b.toNat) else none

theorem asciiDecode_ascii : DecodesAscii asciiDecode := by
  intro cs h
  have hb : ∀ c ∈ cs, (c.toNat.toUInt8).toNat = c.toNat := by
    intro c hc
    have := h c hc
    show (UInt8.ofNat c.toNat).toNat = _
    rw [UInt8.toNat_ofNat']
    omega
  unfold asciiDecode asciiBytes
  rw [if_pos]
  · congr 1
    rw [List.map_map]
    conv_rhs => rw [← List.map_id cs]
    refine List.map_congr_left fun c hc => ?_
    show Char.ofNat (c.toNat.toUInt8).toNat = c
    rw [hb c hc, Char.ofNat_toNat]
  · rw [List.all_eq_true]
    intro b hbm
    obtain ⟨c, hc, rfl⟩ := List.mem_map.1 hbm
    rw [decide_eq_true_eq, hb c hc]
    exact h c hc

/-- A memory for the examples. -/
def countMem (a : Int) : UInt8 := a.toNat.toUInt8

/-- Every second column of a matrix of `int16`, with something after the file. -/
example : ∃ l, readNpy asciiDecode (writeNpy countMem .i16 ⟨0, [3, 2], [8, 4], 2, false, false⟩ ++ [9]) = some (l, [9]) ∧
    l.Holds .i16 (bytesNd countMem ⟨0, [3, 2], [8, 4], 2, false, false⟩) :=
  C46_save_load_partial asciiDecode_ascii countMem .i16 (by simp [IsText]) _ ⟨rfl, by simp, by simp⟩ rfl (by simp) (by simp)
    (by simp) (by decide) (by decide +kernel) [9]

/-- What is read from a file does not depend on what follows. -/
theorem readNpy_append {decode : List UInt8 → Option (List Char)} {bs : List UInt8} {l : Loaded} {rest : List UInt8}
    (h : readNpy decode bs = some (l, rest)) (e : List UInt8) : readNpy decode (bs ++ e) = some (l, rest ++ e) := by
  have hre : ∀ {n bs a b}, readExact n bs = some (a, b) → readExact n (bs ++ e) = some (a, b ++ e) := by
    intro n bs a b h
    obtain ⟨rfl, hl⟩ := readExact_some h
    rw [List.append_assoc]
    exact readExact_append hl _
  unfold readNpy at h ⊢
  rw [Option.bind_eq_some_iff] at h
  obtain ⟨⟨m, b1⟩, h1, h⟩ := h
  rw [hre h1, Option.bind_some]
  dsimp only at h ⊢
  split at h
  · simp at h
  · rename_i hm
    rw [if_neg hm]
    rw [Option.bind_eq_some_iff] at h
    obtain ⟨⟨ver, b2⟩, h2, h⟩ := h
    rw [hre h2, Option.bind_some]
    rw [Option.bind_eq_some_iff] at h
    obtain ⟨⟨n, b3⟩, h3, h⟩ := h
    have h3' : readHeaderLen ver (b2 ++ e) = some (n, b3 ++ e) := by
      unfold readHeaderLen at h3 ⊢
      split at h3
      · rename_i hv
        rw [if_pos hv]
        rw [Option.map_eq_some_iff] at h3
        obtain ⟨⟨x, y⟩, hx, hy⟩ := h3
        simp only [Prod.mk.injEq] at hy
        rw [hre hx, Option.map_some, hy.1, hy.2]
      · rename_i hv
        rw [if_neg hv]
        split at h3
        · rename_i hv2
          rw [if_pos hv2]
          rw [Option.map_eq_some_iff] at h3
          obtain ⟨⟨x, y⟩, hx, hy⟩ := h3
          simp only [Prod.mk.injEq] at hy
          rw [hre hx, Option.map_some, hy.1, hy.2]
        · simp at h3
    dsimp only at h ⊢
    rw [h3', Option.bind_some]
    rw [Option.bind_eq_some_iff] at h
    obtain ⟨⟨hd, b4⟩, h4, h⟩ := h
    rw [hre h4, Option.bind_some]
    rw [Option.bind_eq_some_iff] at h
    obtain ⟨text, h5, h⟩ := h
    dsimp only at h5 ⊢
    rw [h5, Option.bind_some]
    rw [Option.bind_eq_some_iff] at h
    obtain ⟨r, h6, h⟩ := h
    rw [h6, Option.bind_some]
    unfold npyArray at h ⊢
    dsimp only at h ⊢
    rw [Option.map_eq_some_iff] at h
    obtain ⟨⟨x, y⟩, hx, hy⟩ := h
    simp only [Prod.mk.injEq] at hy
    rw [hre hx, Option.map_some, ← hy.1, ← hy.2]

/-- C46: a file that is read to its end is rejected when anything is cut off its end. -/
theorem C46_truncated_rejected {decode : List UInt8 → Option (List Char)} {file : List UInt8} {l : Loaded}
    (h : readNpy decode file = some (l, [])) (n : Nat) (hn : n < file.length) : readNpy decode (file.take n) = none := by
  cases hr : readNpy decode (file.take n) with
  | none => rfl
  | some r =>
    obtain ⟨l', rest⟩ := r
    have := readNpy_append hr (file.drop n)
    rw [List.take_append_drop, h] at this
    simp only [Option.some.injEq, Prod.mk.injEq] at this
    have h2 := congrArg List.length this.2
    simp at h2
    omega

/-- A saved matrix of `int16`, cut anywhere. -/
example (n : Nat) (hn : n < (writeNpy countMem .i16 ⟨0, [3, 2], [8, 4], 2, false, false⟩).length) :
    readNpy asciiDecode ((writeNpy countMem .i16 ⟨0, [3, 2], [8, 4], 2, false, false⟩).take n) = none := by
  obtain ⟨l, h, _⟩ := C46_save_load_partial asciiDecode_ascii countMem .i16 (by simp [IsText])
    ⟨0, [3, 2], [8, 4], 2, false, false⟩ ⟨rfl, by simp, by simp⟩ rfl (by simp) (by simp) (by simp) (by decide) (by decide +kernel) []
  rw [List.append_nil] at h
  exact C46_truncated_rejected h n hn

/-- C46: an accepted file begins with the magic bytes and a version that is not 0. -/
theorem C46_accepted_starts {decode : List UInt8 → Option (List Char)} {file : List UInt8} {r : Loaded × List UInt8}
    (h : readNpy decode file = some r) :
    ∃ major minor rest, file = [0x93, 78, 85, 77, 80, 89] ++ [major, minor] ++ rest ∧ major ≠ 0 := by
  unfold readNpy at h
  rw [Option.bind_eq_some_iff] at h
  obtain ⟨⟨m, b1⟩, h1, h⟩ := h
  split at h
  · simp at h
  · rename_i hm
    push Not at hm
    rw [Option.bind_eq_some_iff] at h
    obtain ⟨⟨ver, b2⟩, h2, h⟩ := h
    rw [Option.bind_eq_some_iff] at h
    obtain ⟨_, h3, _⟩ := h
    obtain ⟨e1, _⟩ := readExact_some h1
    obtain ⟨e2, hv⟩ := readExact_some h2
    dsimp only at hm e2 h3
    obtain ⟨a, b, rfl⟩ := List.length_eq_two.1 hv
    refine ⟨a, b, b2, ?_, ?_⟩
    · rw [e1, e2, hm, List.append_assoc]
      rfl
    · rintro rfl
      simp [readHeaderLen] at h3

example : readNpy asciiDecode ([0x93, 78, 85, 77, 80, 89, 0, 0] ++ List.replicate 80 32) = none := by decide +kernel
example : (readNpy asciiDecode (writeNpy countMem .f64 ⟨0, [], [], 8, true, true⟩)).isSome = true := by decide +kernel

/-- C46: the layout of the file: the magic bytes, version 1.0, the length of the header in two bytes with the low byte
first, the header, and the elements in row-major order; the data start at a multiple of 64 bytes. -/
theorem C46_file_layout (mem : Int → UInt8) (d : DType) (v : View) (hw : v.WF)
    (hal : (d = .f64 ∨ d = .i64) → ∀ s ∈ v.strides, (v.item : Int) ∣ s) (hhead : (npyHeader d v).length + 63 ≤ 65535) :
    ∃ lo hi : UInt8, ∃ head : List UInt8,
      writeNpy mem d v = [0x93, 78, 85, 77, 80, 89, 1, 0, lo, hi] ++ head ++ (bytesNd mem v).toList.flatten ∧
        head.length = lo.toNat + 256 * hi.toNat ∧ (10 + head.length) % 64 = 0 := by
  have hl : (npyText d v).length = (npyHeader d v).length + (64 - ((10 + (npyHeader d v).length) % 64)) % 64 := by
    unfold npyText
    rw [List.length_append, padText_length]
  have hlen : ¬ (npyText d v).length > 65535 := by omega
  have hle := fromLe_leBytes 2 (npyText d v).length (by norm_num; omega)
  refine ⟨((npyText d v).length % 256).toUInt8, ((npyText d v).length / 256 % 256).toUInt8, asciiBytes (npyText d v), ?_, ?_, ?_⟩
  · rw [writeNpy_eq, if_neg hlen, contiguousBytes_eq mem d hw hal]
    simp [npyMagic, leBytes]
  · simp only [leBytes, fromLe, Nat.mul_zero, Nat.add_zero] at hle
    rw [show (asciiBytes (npyText d v)).length = (npyText d v).length by simp [asciiBytes]]
    exact hle.symm
  · rw [show (asciiBytes (npyText d v)).length = (npyText d v).length by simp [asciiBytes]]
    omega

/-- A column of a matrix of `uint8`: the whole file. -/
example : writeNpy countMem .u8 ⟨1, [3], [4], 1, false, false⟩ =
    [0x93, 78, 85, 77, 80, 89, 1, 0, 118, 0] ++
      asciiBytes ("{'descr': '|u1', 'fortran_order': False, 'shape': (3,)}".toList ++ List.replicate 62 ' ' ++ ['\n']) ++
      [1, 5, 9] := by decide +kernel

/-- C46 fails for the format: the header is not ended by a newline when it needs no padding, as for a single `complex128`. -/
theorem C46_newline_counterexample :
    (writeNpy countMem .c128 ⟨0, [], [], 16, true, true⟩).take 64 =
      [0x93, 78, 85, 77, 80, 89, 1, 0, 54, 0] ++
        asciiBytes "{'descr': '<c16', 'fortran_order': False, 'shape': ()}".toList := by decide +kernel

/-- C46: an array in column-major order only is marked as such in the file, but its data are written in row-major order:
the loaded array has, at each index, the element that row-major order puts at the column-major position of that index. -/
theorem C46_column_major_mixed {decode : List UInt8 → Option (List Char)} (hdec : DecodesAscii decode) (mem : Int → UInt8)
    (d : DType) (hd : ¬ IsText d) (v : View) (hw : v.WF) (hitem : v.item = DType.itemsize d)
    (hal : (d = .f64 ∨ d = .i64) → ∀ s ∈ v.strides, (v.item : Int) ∣ s)
    (hf : v.fFlag = true ∧ v.cFlag = false) (hdims : ∀ n ∈ v.shape, n < 2 ^ 64) (hsize : size v.shape * v.item < 2 ^ 64)
    (hhead : (npyHeader d v).length + 63 < 2 ^ 32) (extra : List UInt8) :
    ∃ l, readNpy decode (writeNpy mem d v ++ extra) = some (l, extra) ∧ l.dtype = d ∧ l.view.shape = v.shape ∧
      ∀ a b, InShape v.shape a → InShape v.shape b → rankF v.shape a = rank v.shape b →
        l.elem? (l.view.addr a) = some ((bytesNd mem v).get b) := by
  have hlen : (npyText d v).length < 2 ^ 32 := by
    unfold npyText
    rw [List.length_append, padText_length]
    omega
  have hnf : (v.fFlag && !v.cFlag) = true := by simp [hf]
  have hparse : parseNpyHeader (npyText d v) = some (d, v.shape, true) := by
    unfold npyText
    rw [npyHeader_eq, hnf]
    exact parse_header d hd true v.shape hdims _ fun c hc => (padText_space _ c hc).1
  rw [writeNpy_eq]
  simp only [List.append_assoc]
  rw [read_fields hdec _ (npyText_ascii d v) hlen, hparse]
  simp only [Option.bind_some]
  unfold npyArray
  dsimp only
  have hb : (bytesNd mem v).toList.flatten.length = (Rumpy.sizeOf v.shape * DType.itemsize d) % 2 ^ 64 := by
    rw [bytes_length, ← hitem, Nat.mod_eq_of_lt]
    rw [sizeOf_eq]
    exact hsize
  rw [contiguousBytes_eq mem d hw hal, readExact_append hb]
  refine ⟨_, rfl, rfl, rfl, fun a b ha hb' hr => ?_⟩
  have hrow := (rowMajor_holds mem v d true).2.2 b hb'
  rw [← hrow]
  unfold Loaded.elem? View.addr
  have e1 : byteOffset a (fStrides v.shape (DType.itemsize d)) = (v.item : Int) * (rank v.shape b : Int) := by
    unfold fStrides
    rw [byteOffset_fStridesLoop _ _ _ ha.length_eq, hr, hitem]
  have e2 : byteOffset b (cStrides v.shape v.item) = (v.item : Int) * (rank v.shape b : Int) := by
    have := cFlag_addr (View.WF.fresh v.shape v.item) rfl (idx := b) hb'
    unfold View.addr at this
    simp only [View.fresh] at this
    linarith
  simp only [if_true]
  rw [e1, e2, ← hitem]

/-- The transposed `2 × 3` matrix of `int16`: the element in row 1, column 0 of the loaded array is that of row 0, column 1
of the saved one. -/
example : ∃ l, readNpy asciiDecode (writeNpy countMem .i16 ⟨0, [3, 2], [2, 6], 2, false, true⟩ ++ []) = some (l, []) ∧
    l.elem? (l.view.addr [1, 0]) = some ((bytesNd countMem ⟨0, [3, 2], [2, 6], 2, false, true⟩).get [0, 1]) := by
  obtain ⟨l, h, _, _, h2⟩ := C46_column_major_mixed asciiDecode_ascii countMem .i16 (by simp [IsText])
    ⟨0, [3, 2], [2, 6], 2, false, true⟩ ⟨rfl, by simp, by decide⟩ rfl (by simp) (by simp) (by simp) (by decide) (by decide +kernel) []
  exact ⟨l, h, h2 [1, 0] [0, 1] (by decide) (by decide) (by decide)⟩

/-- C46 fails for arrays in column-major order only: the transposed `2 × 2` matrix comes back with two elements swapped. -/
theorem C46_column_major_counterexample :
    ∃ v : View, v.WF ∧ (readNpy asciiDecode (writeNpy countMem .u8 v)).map
      (fun r => (r.1.view.shape, r.1.elem? (r.1.view.addr [0, 1]), (bytesNd countMem v).get [0, 1])) =
        some ([2, 2], some [1], [2]) :=
  ⟨⟨0, [2, 2], [1, 2], 1, false, true⟩, ⟨rfl, by simp, by decide⟩, by decide +kernel⟩

/-- C46 fails for text: two strings of three characters (12 bytes each) come back as strings of length 0. -/
theorem C46_text_counterexample :
    (readNpy asciiDecode (writeNpy countMem (.str 3) ⟨0, [2], [12], 12, true, true⟩)).map
      (fun r => (r.1.dtype, r.1.buffer, r.2.length)) = some (.str 0, [], 24) := by decide +kernel

/-- C46 (partial): every element of a loaded array lies inside the bytes that were read, if the number of bytes in the
header is less than `2 ^ 64`. -/
theorem C46_loaded_in_bounds_partial {decode : List UInt8 → Option (List Char)} {file : List UInt8} {l : Loaded}
    {rest : List UInt8} (h : readNpy decode file = some (l, rest)) (hsize : size l.view.shape * l.view.item < 2 ^ 64)
    (idx : List Nat) (hi : InShape l.view.shape idx) : (l.elem? (l.view.addr idx)).isSome = true := by
  unfold readNpy at h
  rw [Option.bind_eq_some_iff] at h
  obtain ⟨⟨m, b1⟩, h1, h⟩ := h
  split at h
  · simp at h
  · rw [Option.bind_eq_some_iff] at h
    obtain ⟨_, _, h⟩ := h
    rw [Option.bind_eq_some_iff] at h
    obtain ⟨_, _, h⟩ := h
    rw [Option.bind_eq_some_iff] at h
    obtain ⟨_, _, h⟩ := h
    rw [Option.bind_eq_some_iff] at h
    obtain ⟨_, _, h⟩ := h
    rw [Option.bind_eq_some_iff] at h
    obtain ⟨⟨d, s, f⟩, _, h⟩ := h
    unfold npyArray at h
    dsimp only at h
    rw [Option.map_eq_some_iff] at h
    obtain ⟨⟨x, y⟩, hx, hy⟩ := h
    simp only [Prod.mk.injEq] at hy
    obtain ⟨rfl, rfl⟩ := hy
    have hl := (readExact_some hx).2
    dsimp only at hsize hi hl
    rw [sizeOf_eq, Nat.mod_eq_of_lt hsize] at hl
    have key : ∃ k, k < size s ∧ (⟨0, s, if f = true then fStrides s (Rumpy.DType.itemsize d) else cStrides s (Rumpy.DType.itemsize d),
        Rumpy.DType.itemsize d, !f, f || decide ((s.filter fun n => decide (n > 1)).length ≤ 1)⟩ : View).addr idx =
        ((k * Rumpy.DType.itemsize d : Nat) : Int) := by
      unfold View.addr
      dsimp only
      cases f with
      | true =>
        refine ⟨rankF s idx, rankF_lt hi, ?_⟩
        rw [if_pos rfl]
        unfold fStrides
        rw [byteOffset_fStridesLoop _ _ _ hi.length_eq]
        push_cast
        ring
      | false =>
        refine ⟨rank s idx, rank_lt hi, ?_⟩
        rw [if_neg (by simp)]
        have := cFlag_addr (View.WF.fresh s (Rumpy.DType.itemsize d)) rfl (idx := idx) hi
        unfold View.addr at this
        simp only [View.fresh] at this
        rw [this]
        push_cast
        ring
    obtain ⟨k, hk, hka⟩ := key
    unfold Loaded.elem?
    rw [hka, Int.toNat_natCast]
    dsimp only
    have hb : k * Rumpy.DType.itemsize d + Rumpy.DType.itemsize d ≤ size s * Rumpy.DType.itemsize d := by
      have := Nat.mul_le_mul_right (Rumpy.DType.itemsize d) (Nat.succ_le_of_lt hk)
      rw [Nat.succ_mul] at this
      exact this
    rw [if_pos ⟨by omega, by omega⟩]
    rfl

/-- A file with this header text and these data. -/
def fileOf (text : String) (data : List UInt8) : List UInt8 :=
  npyMagic ++ [1, 0] ++ leBytes 2 text.length ++ asciiBytes text.toList ++ data

example : (readNpy asciiDecode (fileOf "{'descr': '<u2', 'fortran_order': True, 'shape': (2, 1)}" [1, 2, 3, 4])).map
    (fun r => (r.1.view.shape, r.1.elem? (r.1.view.addr [1, 0]))) = some ([2, 1], some [3, 4]) := by decide +kernel

/-- C46 fails for a header whose size does not fit in a word: the file is accepted without any data, and its elements lie
outside the buffer. -/
theorem C46_overflow_counterexample :
    (readNpy asciiDecode (fileOf "{'descr': '<f8', 'fortran_order': False, 'shape': (2305843009213693952,)}" [])).map
      (fun r => (r.1.view.shape, r.1.buffer, r.1.elem? (r.1.view.addr [0]))) =
        some ([2305843009213693952], [], none) := by decide +kernel

/-- C46 fails for wrong headers: dimensions that are not numbers are dropped, and a version that does not exist is read. -/
theorem C46_wrong_header_counterexample :
    ((readNpy asciiDecode (fileOf "{'descr': '|u1', 'fortran_order': False, 'shape': (2, x, -3)}" [7, 8])).map
      (fun r => (r.1.view.shape, r.1.buffer)) = some ([2], [7, 8])) ∧
    ((readNpy asciiDecode (npyMagic ++ [9, 9] ++ leBytes 4 54 ++
      asciiBytes "{'descr': '|u1', 'fortran_order': False, 'shape': ()} ".toList ++ [7])).map
      (fun r => (r.1.view.shape, r.1.buffer)) = some ([], [7])) := by decide +kernel

/-! ### Raw data -/

/-- The array held by consecutive elements of raw data. -/
def rawNd (data : List UInt8) (item n : Nat) : Nd (List UInt8) :=
  ⟨[n], fun idx => (data.drop (idx.getD 0 0 * item)).take item⟩

theorem raw_holds (d : DType) (item n : Nat) (data : List UInt8) (hlen : n * item ≤ data.length) (c f : Bool) :
    Loaded.Holds ⟨d, ⟨0, [n], [(item : Int)], item, c, f⟩, data.take (n * item)⟩ d (rawNd data item n) := by
  refine ⟨rfl, rfl, fun idx hi => ?_⟩
  obtain ⟨i, rfl⟩ : ∃ i, idx = [i] := by
    have := hi.length_eq
    obtain ⟨i, rfl⟩ := List.length_eq_one_iff.1 this
    exact ⟨i, rfl⟩
  have hin : i < n := hi.1
  unfold Loaded.elem? View.addr
  dsimp only
  have e : (0 : Int) + byteOffset [i] [(item : Int)] = ((i * item : Nat) : Int) := by simp [byteOffset]
  rw [e, Int.toNat_natCast]
  have hb : i * item + item ≤ n * item := by
    have := Nat.mul_le_mul_right item (Nat.succ_le_of_lt hin)
    rw [Nat.succ_mul] at this
    exact this
  rw [if_pos ⟨by omega, by rw [List.length_take]; omega⟩]
  simp only [rawNd, List.getD_cons_zero]
  rw [List.drop_take, List.take_take, Nat.min_eq_left (by omega)]

/-- C46: `frombuffer` refuses a request for more elements than there are bytes after the offset, and else gives the
requested elements, or all of them. -/
theorem C46_frombuffer (data : List UInt8) (d : DType) (hd : 0 < DType.itemsize d) (count : Int) (offset : Nat) :
    (frombuffer data d count offset = none ↔ 0 ≤ count ∧ ((data.length - offset : Nat) : Int) < count * DType.itemsize d) ∧
    ∀ l, frombuffer data d count offset = some l → ∃ n : Nat,
      (0 ≤ count → (n : Int) = count) ∧
      (count < 0 → n * DType.itemsize d ≤ data.length - offset ∧ data.length - offset < (n + 1) * DType.itemsize d) ∧
      l.Holds d (rawNd (data.drop offset) (DType.itemsize d) n) := by
  unfold frombuffer
  dsimp only
  rw [if_neg (by omega)]
  generalize hk : Rumpy.DType.itemsize d = k at hd ⊢
  have hiff : (data.length - offset) / k < count.toNat ↔ data.length - offset < count.toNat * k := Nat.div_lt_iff_lt_mul hd
  have hcast : 0 ≤ count → (((data.length - offset : Nat) : Int) < count * k ↔ data.length - offset < count.toNat * k) := by
    intro h
    obtain ⟨c, rfl⟩ := Int.eq_ofNat_of_zero_le h
    rw [Int.toNat_natCast]
    norm_cast
  constructor
  · constructor
    · intro h
      split at h
      · rename_i hc
        exact ⟨hc.1, (hcast hc.1).2 (hiff.1 hc.2)⟩
      · simp at h
    · rintro ⟨h1, h2⟩
      rw [if_pos ⟨h1, hiff.2 ((hcast h1).1 h2)⟩]
  · intro l hl
    split at hl
    · simp at hl
    · rename_i hc
      simp only [Option.some.injEq] at hl
      subst hl
      by_cases h0 : count < 0
      · refine ⟨(data.length - offset) / k, by omega, fun _ => ⟨Nat.div_mul_le_self _ _, ?_⟩, ?_⟩
        · exact Nat.lt_mul_of_div_lt (Nat.lt_succ_self _) hd
        · rw [if_pos h0]
          exact raw_holds d k _ (data.drop offset) (by rw [List.length_drop]; exact Nat.div_mul_le_self _ _) true false
      · refine ⟨count.toNat, by omega, fun h => absurd h h0, ?_⟩
        rw [if_neg h0]
        refine raw_holds d k _ (data.drop offset) ?_ true false
        rw [List.length_drop]
        have : ¬ (data.length - offset < count.toNat * k) := fun h => hc ⟨by omega, hiff.2 h⟩
        omega

example : (frombuffer [1, 2, 3, 4, 5, 6, 7] .u16 2 1).map (fun l => (l.view.shape, l.elem? (l.view.addr [1]))) =
    some ([2], some [4, 5]) := by decide +kernel
example : frombuffer [1, 2, 3, 4, 5, 6, 7] .u16 4 1 = none := by decide +kernel

/-- C46: `frombuffer` does not check what NumPy checks: left-over bytes are dropped and an offset past the end gives an
empty array. -/
theorem C46_frombuffer_counterexample :
    (frombuffer [1, 2, 3] .u16 (-1) 0).map (fun l => (l.view.shape, l.buffer)) = some ([1], [1, 2]) ∧
    (frombuffer [1, 2, 3] .u16 (-1) 9).map (fun l => (l.view.shape, l.buffer)) = some ([0], []) := by decide +kernel

/-- C46: `tofile` then `fromfile` gives the elements in row-major order, at most `count` of them, for every layout. -/
theorem C46_tofile_fromfile (mem : Int → UInt8) (d : DType) (v : View) (hw : v.WF) (hitem : v.item = DType.itemsize d)
    (hpos : 0 < v.item) (hal : (d = .f64 ∨ d = .i64) → ∀ s ∈ v.strides, (v.item : Int) ∣ s) (count : Int) :
    ∃ l, fromfile (contiguousBytes mem d v) d count 0 = some l ∧ l.dtype = d ∧
      l.view.shape = [if count < 0 then size v.shape else min count.toNat (size v.shape)] ∧
      ∀ idx, InShape v.shape idx → (count < 0 ∨ (rank v.shape idx : Int) < count) →
        l.elem? (l.view.addr [rank v.shape idx]) = some ((bytesNd mem v).get idx) := by
  rw [contiguousBytes_eq mem d hw hal]
  unfold fromfile
  dsimp only
  rw [← hitem, if_neg (by omega), bytes_length, sizeOf_eq, Nat.sub_zero, Nat.mul_div_cancel _ hpos, List.drop_zero]
  set n := if count < 0 then size v.shape else min count.toNat (size v.shape) with hn
  have hns : n ≤ size v.shape := by rw [hn]; split <;> omega
  have hle : n * v.item ≤ (bytesNd mem v).toList.flatten.length := by
    rw [bytes_length, sizeOf_eq]
    exact Nat.mul_le_mul_right _ hns
  unfold readExact
  rw [if_pos hle, Option.map_some]
  refine ⟨_, rfl, rfl, rfl, fun idx hi hc => ?_⟩
  have hr := rank_lt hi
  have hrn : rank v.shape idx < n := by rw [hn]; split <;> omega
  have := (raw_holds d v.item n (bytesNd mem v).toList.flatten hle true false).2.2 [rank v.shape idx] ⟨hrn, trivial⟩
  rw [this]
  simp only [rawNd, List.getD_cons_zero]
  have hlen : (bytesNd mem v).toList.length = size v.shape := by simp [Nd.toList, length_indices, bytesNd, View.denote]
  rw [flatten_block (toList_lengths mem v) _ (by rw [hlen]; exact hr), ← toList_getElem? (nd := bytesNd mem v) hi]
  exact (List.getElem?_eq_getElem _).symm

example : ∃ l, fromfile (contiguousBytes countMem .i16 ⟨0, [3, 2], [2, 6], 2, false, true⟩) .i16 4 0 = some l ∧
    l.view.shape = [4] ∧ l.elem? (l.view.addr [1]) = some [6, 7] := by decide +kernel

end Props
