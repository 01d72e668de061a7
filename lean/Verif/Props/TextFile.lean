import Verif.Lemmas.TextFile
/-!
# C75: text files

`loadtxt` and `genfromtxt` read a table of numbers, `savetxt` writes one; `fromfile` and `tofile` with a separator do the
same for a flat list. Printing and reading one number enters by contract: `parse (fmt x) = some x`, and the printed number
is a word (not empty, no whitespace).
-/

namespace Props
open Rumpy Spec

/-! ### What is read -/

/-- Lines written with a newline after each are the lines of the file (a carriage return before the newline aside). -/
theorem C75_lines (ls : List (List Char)) (h : ∀ l ∈ ls, '\n' ∉ l ∧ l.getLast? ≠ some '\r') :
    fileLines (ls.flatMap fun l => l ++ ['\n']) = ls := by
  have := fileLines_flatMap (fun l hl => (h l hl).1) []
  rw [List.append_nil, fileLines_nil, List.append_nil] at this
  rw [this]
  conv_rhs => rw [← List.map_id ls]
  refine List.map_congr_left fun l hl => ?_
  unfold stripCr
  rw [if_neg (h l hl).2]
  rfl

example : fileLines "a b\n\nc\r\nlast".toList = ["a b".toList, [], ['c'], "last".toList] := by decide

/-- Cutting a text at a separator: the pieces joined are the text, and no piece holds the separator. -/
theorem C75_split (sep s : List Char) (h : sep ≠ []) :
    List.intercalate sep (splitStr sep s) = s ∧ ∀ p ∈ splitStr sep s, ¬ sep <:+: p :=
  ⟨splitStr_join h s, splitStr_free h s⟩

example : splitStr "::".toList "a:::b::".toList = [['a'], ":b".toList, []] := by decide

/-- Words separated by any amount of whitespace are found. -/
theorem C75_words (ws : List (List Char × List Char))
    (h : ∀ p ∈ ws, p.1 ≠ [] ∧ (∀ c ∈ p.1, isSpaceChar c = false) ∧ p.2 ≠ [] ∧ ∀ c ∈ p.2, isSpaceChar c = true) :
    splitWhitespace (ws.flatMap fun p => p.1 ++ p.2) = ws.map Prod.fst := by
  induction ws with
  | nil => rfl
  | cons p ws ih =>
    obtain ⟨h1, h2, h3, h4⟩ := h p (by simp)
    rw [List.flatMap_cons, List.append_assoc, splitWhitespace_append h1 h2 h3 h4, ih (fun q hq => h q (List.mem_cons_of_mem _ hq))]
    rfl

example : splitWhitespace " 1  22\t3 ".toList = [['1'], ['2', '2'], ['3']] := by decide

/-- `loadtxt`: the lines after the skipped ones that are not blank and not comments, at most `max` of them, are the rows. The
file is accepted exactly when all rows have the same number of fields and every field is a number; the numbers are stored
row by row. -/
theorem C75_load {α : Type} (parse : List Char → Option α) (comments delimiter : List Char) (skiprows : Nat)
    (usecols : Option (List Nat)) (max : Option Nat) (text : List Char) (a : Arr α) (rows : List (List (List Char)))
    (hrows : rows = (dataLines (isDataLine comments) skiprows 0 max (fileLines text)).map
      fun line => selectCols usecols (fieldsOf delimiter line)) :
    loadtxt parse comments delimiter skiprows usecols max text = some a ↔
      ∃ m vals, Reads parse m rows vals ∧
        a = if rows = [] then ⟨[0, 0], []⟩ else ⟨if m = 1 then [rows.length] else [rows.length, m], vals.flatten⟩ := by
  have e : rows = (upTo (max.map (· - 0)) (((upTo (none : Option Nat) (fileLines text)).drop (skiprows - 0)).filter
      (isDataLine comments))).map fun line => selectCols usecols (fieldsOf delimiter line) := by
    rw [hrows]
    unfold dataLines
    rw [Nat.sub_zero, List.take_length]
    cases max <;> rfl
  unfold loadtxt
  rw [tableLoop_eq]
  have := foldlM_takeRow_start parse rows a
  rw [e] at this ⊢
  exact this

/-- Which lines hold data: with the blanks at both ends taken off, something is left, and it does not begin with the comment
marker. An empty marker marks nothing. -/
theorem C75_data_lines (comments pre mid post : List Char) (hpre : ∀ c ∈ pre, isSpaceChar c = true)
    (hpost : ∀ c ∈ post, isSpaceChar c = true) (h1 : ∀ c ∈ mid.head?, isSpaceChar c = false)
    (h2 : ∀ c ∈ mid.getLast?, isSpaceChar c = false) :
    isDataLine comments (pre ++ mid ++ post) = true ↔ mid ≠ [] ∧ (comments ≠ [] → ¬ comments <+: mid) := by
  have e : trimStr (pre ++ mid ++ post) = mid := by
    have hr : trimStr (pre ++ mid ++ post) = trimStr (pre ++ mid) := by
      clear h1 h2
      induction post using List.reverseRecOn with
      | nil => rw [List.append_nil]
      | append_singleton post c ih =>
        rw [← List.append_assoc, trimStr_append_space _ (hpost c (by simp)), ih fun d hd => hpost d (by simp [hd])]
    rw [hr]
    have hl : trimStr (pre ++ mid) = trimStr mid := by
      unfold trimStr
      rw [List.dropWhile_append_of_pos hpre]
    rw [hl, trimStr_ends h1 h2]
  unfold isDataLine
  dsimp only
  rw [e]
  rw [← List.isPrefixOf_iff_prefix]
  have hemp : ∀ l : List Char, l.isEmpty = true ↔ l = [] := fun l => by simp
  generalize comments.isPrefixOf mid = q
  have h3 := hemp mid
  have h4 := hemp comments
  generalize mid.isEmpty = x at *
  generalize comments.isEmpty = y at *
  cases x <;> cases y <;> cases q <;> simp_all

example : isDataLine ['#'] " 1 # 2 \t".toList = true ∧ isDataLine ['#'] "  # 1".toList = false ∧
    isDataLine [] "# 1".toList = true := by decide +kernel

example : (loadtxt parseUsize ['#'] [','] 1 (some [2, 0]) none "x,y,z\n1, 2 ,3\n\n# c\n 4,5,6\n".toList).map
    (fun a => (a.shape, a.data)) = some ([2, 2], [3, 1, 6, 4]) := by decide +kernel
example : (loadtxt parseUsize ['#'] [] 0 none (some 2) "1 2\n3 4\n5\n".toList).map
    (fun a => (a.shape, a.data)) = some ([2, 2], [1, 2, 3, 4]) := by decide +kernel
example : (loadtxt parseUsize ['#'] [] 0 none none "1 2\n3 4\n5\n".toList).isNone = true := by decide +kernel

/-- `genfromtxt`: the same with a footer, and every field has a value: what is empty, missing or not a number is filled. The
file is accepted exactly when all rows have the same number of fields. -/
theorem C75_genfromtxt {α : Type} (parse : List Char → Option α) (comments delimiter : List Char) (skipHeader skipFooter : Nat)
    (usecols : Option (List Nat)) (missing : List Char) (filling : α) (max : Option Nat) (text : List Char) (a : Arr α)
    (rows : List (List (List Char)))
    (hrows : rows = (dataLines (isDataLine comments) skipHeader skipFooter max (fileLines text)).map
      fun line => selectCols usecols (fieldsOf delimiter line))
    (value : List Char → α)
    (hvalue : ∀ s, value s = if s = [] ∨ s = missing then filling else (parse s).getD filling) :
    genfromtxt parse comments delimiter skipHeader skipFooter usecols missing filling max text = some a ↔
      ∃ m, (∀ r ∈ rows, r.length = m) ∧
        a = if rows = [] then ⟨[0, 0], []⟩ else ⟨if m = 1 then [rows.length] else [rows.length, m], (rows.flatten).map value⟩ := by
  have hc : ∀ s, cellOr parse missing filling s = some (value s) := by
    intro s
    unfold cellOr
    rw [hvalue]
    congr 1
    by_cases h : s = [] ∨ s = missing
    · rw [if_pos h, if_pos (by simpa using h)]
    · rw [if_neg h, if_neg (by simpa using h)]
  have hreads : ∀ (m : Nat) (rs : List (List (List Char))) (vals : List (List α)), Reads (cellOr parse missing filling) m rs vals ↔
      (∀ r ∈ rs, r.length = m) ∧ vals = rs.map fun r => r.map value := by
    have h2 : ∀ (r : List (List Char)) (xs : List α),
        List.Forall₂ (fun t x => cellOr parse missing filling t = some x) r xs ↔ xs = r.map value := by
      intro r
      induction r with
      | nil => intro xs; simp
      | cons t r ih =>
        intro xs
        rw [List.forall₂_cons_left_iff]
        constructor
        · rintro ⟨b, u, h, hu, rfl⟩
          rw [hc] at h
          cases h
          rw [(ih u).1 hu]
          rfl
        · rintro rfl
          exact ⟨_, _, hc t, (ih _).2 rfl, rfl⟩
    intro m rs
    unfold Reads
    induction rs with
    | nil => intro vals; simp
    | cons r rs ih =>
      intro vals
      rw [List.forall₂_cons_left_iff]
      constructor
      · rintro ⟨b, u, ⟨h, hb⟩, hu, rfl⟩
        rw [(h2 r b).1 hb, ((ih u).1 hu).2]
        refine ⟨?_, rfl⟩
        intro s hs
        rcases List.mem_cons.1 hs with rfl | hs
        · exact h
        · exact ((ih u).1 hu).1 s hs
      · rintro ⟨h, rfl⟩
        exact ⟨_, _, ⟨h r (by simp), (h2 r _).2 rfl⟩, (ih _).2 ⟨fun s hs => h s (List.mem_cons_of_mem _ hs), rfl⟩, rfl⟩
  have e : rows = (upTo (max.map (· - 0)) (((upTo ((some ((fileLines text).length - skipFooter)).map (· - 0))
      (fileLines text)).drop (skipHeader - 0)).filter (isDataLine comments))).map
        fun line => selectCols usecols (fieldsOf delimiter line) := by
    rw [hrows]
    unfold dataLines
    cases max <;> rfl
  unfold genfromtxt
  dsimp only
  rw [tableLoop_eq]
  have := foldlM_takeRow_start (cellOr parse missing filling) rows a
  rw [e] at this ⊢
  rw [this, ← e]
  constructor
  · rintro ⟨m, vals, h, rfl⟩
    obtain ⟨h', rfl⟩ := (hreads m rows vals).1 h
    refine ⟨m, h', ?_⟩
    rw [← List.map_flatten]
  · rintro ⟨m, h, rfl⟩
    refine ⟨m, _, (hreads m rows _).2 ⟨h, rfl⟩, ?_⟩
    rw [← List.map_flatten]

example : (genfromtxt parseUsize ['#'] [','] 1 1 none "NA".toList 9 none "h\n1,,3\n4,NA,x\nfooter,1\n".toList).map
    (fun a => (a.shape, a.data)) = some ([2, 3], [1, 9, 3, 4, 9, 9]) := by decide +kernel

/-! ### What is written is read back -/

/-- The rows of a table written by `savetxt`, one line each. -/
theorem C75_saved_rows {α : Type} (fmt : α → List Char) (delimiter newline : List Char) (a : Nd α) (n m : Nat)
    (hshape : (a.shape = [] ∧ n = 1 ∧ m = 1) ∨ (a.shape = [n] ∧ m = 1) ∨ ∃ k ks, a.shape = n :: k :: ks ∧ m = (k :: ks).prod) :
    ∃ rows : List (List α), rows.length = n ∧ (∀ r ∈ rows, r.length = m) ∧ rows.flatten = a.toList ∧
      savetxt fmt delimiter newline [] [] [] a = rows.flatMap fun r => List.intercalate delimiter (r.map fmt) ++ newline := by
  have hsz : a.toList.length = n * m := by
    show ((indices a.shape).map a.get).length = _
    rw [List.length_map, length_indices]
    have hp : ∀ s : List Nat, Spec.size s = s.prod := by
      intro s
      induction s with
      | nil => rfl
      | cons d s ih => rw [List.prod_cons, ← ih]; rfl
    rw [hp]
    rcases hshape with ⟨h, rfl, rfl⟩ | ⟨h, rfl⟩ | ⟨k, ks, h, rfl⟩ <;> rw [h] <;> simp
  have hsave : savetxt fmt delimiter newline [] [] [] a = bodyText fmt delimiter newline a.shape a.toList := by
    unfold savetxt commentLines
    rw [fileLines_nil]
    simp
  rw [hsave]
  have col : m = 1 → ∃ rows : List (List α), rows.length = n ∧ (∀ r ∈ rows, r.length = m) ∧ rows.flatten = a.toList ∧
      a.toList.flatMap (fun x => fmt x ++ newline) = rows.flatMap fun r => List.intercalate delimiter (r.map fmt) ++ newline := by
    rintro rfl
    refine ⟨a.toList.map fun x => [x], by simp [hsz], by simp, ?_, ?_⟩
    · induction a.toList with
      | nil => rfl
      | cons x xs ih => simp [ih]
    · rw [List.flatMap_map]
      simp
  rcases hshape with ⟨h, rfl, rfl⟩ | ⟨h, rfl⟩ | ⟨k, ks, h, rfl⟩
  · rw [h]
    exact col rfl
  · rw [h]
    exact col rfl
  · rw [h]
    refine ⟨(List.range n).map fun r => (a.toList.drop (r * (k :: ks).prod)).take (k :: ks).prod, by simp, ?_, ?_, ?_⟩
    · intro r hr
      obtain ⟨i, hi, rfl⟩ := List.mem_map.1 hr
      rw [List.length_take, List.length_drop, hsz]
      have hi := List.mem_range.1 hi
      have : (i + 1) * (k :: ks).prod ≤ n * (k :: ks).prod := Nat.mul_le_mul_right _ hi
      rw [Nat.succ_mul] at this
      omega
    · rw [blocks_flatten, ← hsz, List.take_length]
    · rw [List.flatMap_map]
      show (List.range n).flatMap _ = _
      simp only [rowText_eq]

/-- A table that is saved and loaded is the same table. The header and the footer are comments. The delimiter is whitespace
and the reader looks for whitespace, or both use the same delimiter and its first character is in no number. Missing: NumPy
drops axes of length one (see `C75_shape_counterexample`) and refuses arrays with more than two axes. -/
theorem C75_round_trip_partial {α : Type} (fmt : α → List Char) (parse : List Char → Option α) (a : Nd α) (n m : Nat)
    (hn : 0 < n) (hm : 0 < m)
    (hshape : (a.shape = [] ∧ n = 1 ∧ m = 1) ∨ (a.shape = [n] ∧ m = 1) ∨ ∃ k ks, a.shape = n :: k :: ks ∧ m = (k :: ks).prod)
    (header footer comment tail delimiter readDelimiter : List Char)
    (hfmt : ∀ x ∈ a.toList, parse (fmt x) = some x ∧ fmt x ≠ [] ∧ ∀ c ∈ fmt x, isSpaceChar c = false)
    (hc0 : comment ≠ []) (hc1 : ∀ c ∈ comment.head?, isSpaceChar c = false ∧ ∀ x ∈ a.toList, c ∉ fmt x)
    (hc2 : ∀ c ∈ comment.getLast?, isSpaceChar c = false) (hc3 : '\n' ∉ comment ++ tail)
    (hd0 : delimiter ≠ []) (hd1 : '\n' ∉ delimiter)
    (hd2 : (readDelimiter = [] ∧ ∀ c ∈ delimiter, isSpaceChar c = true) ∨
      (readDelimiter = delimiter ∧ ∀ c ∈ delimiter.head?, ∀ x ∈ a.toList, c ∉ fmt x)) :
    loadtxt parse comment readDelimiter 0 none none (savetxt fmt delimiter ['\n'] header footer (comment ++ tail) a) =
      some ⟨if m = 1 then [n] else [n, m], a.toList⟩ := by
  obtain ⟨rows, hlen, hrow, hflat, hsave⟩ := C75_saved_rows fmt delimiter ['\n'] a n m hshape
  have hmem : ∀ r ∈ rows, ∀ x ∈ r, x ∈ a.toList := fun r hr x hx => by
    rw [← hflat]
    exact List.mem_flatten.2 ⟨r, hr, hx⟩
  let line := fun r : List α => List.intercalate delimiter (r.map fmt)
  let note := fun t : List Char => (fileLines t).map fun l => (comment ++ tail) ++ l
  have hbody : bodyText fmt delimiter ['\n'] a.shape a.toList = rows.flatMap fun r => line r ++ ['\n'] := by
    have h0 : savetxt fmt delimiter ['\n'] [] [] [] a = bodyText fmt delimiter ['\n'] a.shape a.toList := by
      unfold savetxt commentLines
      rw [fileLines_nil]
      simp
    rw [← h0, hsave]
  have hnote : ∀ t, commentLines (comment ++ tail) ['\n'] t = (note t).flatMap fun l => l ++ ['\n'] := by
    intro t
    unfold commentLines
    simp only [note]
    rw [List.flatMap_map]
  have hline_ne : ∀ r ∈ rows, r.map fmt ≠ [] := by
    intro r hr e
    have := hrow r hr
    rw [List.map_eq_nil_iff] at e
    rw [e] at this
    simp at this
    omega
  have hword : ∀ r ∈ rows, ∀ w ∈ r.map fmt, w ≠ [] ∧ ∀ c ∈ w, isSpaceChar c = false := by
    intro r hr w hw
    obtain ⟨x, hx, rfl⟩ := List.mem_map.1 hw
    exact (hfmt x (hmem r hr x hx)).2
  have htrim : ∀ r ∈ rows, trimStr (line r) = line r := by
    intro r hr
    refine trimStr_ends ?_ ?_
    · intro c hc
      obtain ⟨w, ws, e⟩ := List.exists_cons_of_ne_nil (hline_ne r hr)
      have hw := hword r hr w (by rw [e]; simp)
      simp only [line] at hc
      rw [e, intercalate_head _ hw.1] at hc
      exact hw.2 c (List.mem_of_mem_head? hc)
    · intro c hc
      obtain ⟨w, hw, e⟩ := intercalate_last (sep := delimiter) (hline_ne r hr) (fun w hw => (hword r hr w hw).1)
      simp only [line] at hc
      rw [e] at hc
      exact (hword r hr w hw).2 c (List.mem_of_mem_getLast? hc)
  have hdata : ∀ r ∈ rows, isDataLine comment (line r) = true := by
    intro r hr
    unfold isDataLine
    rw [htrim r hr]
    obtain ⟨w, ws, e⟩ := List.exists_cons_of_ne_nil (hline_ne r hr)
    have hw := hword r hr w (by rw [e]; simp)
    obtain ⟨d, w', hw'⟩ := List.exists_cons_of_ne_nil hw.1
    have hh : (line r).head? = some d := by
      simp only [line]
      rw [e, intercalate_head _ hw.1, hw']
      rfl
    obtain ⟨c, cs, rfl⟩ := List.exists_cons_of_ne_nil hc0
    have hne : c ≠ d := by
      rintro rfl
      have : w ∈ r.map fmt := by rw [e]; simp
      obtain ⟨x, hx, rfl⟩ := List.mem_map.1 this
      exact (hc1 c (by simp)).2 x (hmem r hr x hx) (by rw [hw']; simp)
    cases hl : line r with
    | nil => rw [hl] at hh; simp at hh
    | cons d' l =>
      rw [hl] at hh
      simp only [List.head?_cons, Option.some.injEq] at hh
      subst hh
      simp [List.isPrefixOf, hne]
  have hskip : ∀ t, ∀ l ∈ note t, isDataLine comment l = false := by
    intro t l hl
    simp only [note] at hl
    obtain ⟨p, -, rfl⟩ := List.mem_map.1 hl
    unfold isDataLine
    have := trimStr_prefix (s := tail ++ p) hc0 (fun c hc => (hc1 c hc).1) hc2
    rw [List.append_assoc]
    dsimp only
    rw [List.isPrefixOf_iff_prefix.2 this]
    cases comment with
    | nil => exact absurd rfl hc0
    | cons c cs => simp
  have hfree : ∀ l ∈ note header ++ rows.map line ++ note footer, '\n' ∉ l := by
    have hn : ∀ t, ∀ l ∈ note t, '\n' ∉ l := by
      intro t l hl
      simp only [note] at hl
      obtain ⟨p, hp, rfl⟩ := List.mem_map.1 hl
      have := fileLines_free t p hp
      rw [List.mem_append]
      exact fun h => h.elim hc3 this
    intro l hl
    rcases List.mem_append.1 hl with hl | hl
    · rcases List.mem_append.1 hl with hl | hl
      · exact hn header l hl
      · obtain ⟨r, hr, rfl⟩ := List.mem_map.1 hl
        intro hc
        rcases intercalate_mem hc with h | ⟨w, hw, h⟩
        · exact hd1 h
        · exact absurd ((hword r hr w hw).2 _ h) (by decide)
    · exact hn footer l hl
  have htext : savetxt fmt delimiter ['\n'] header footer (comment ++ tail) a =
      (note header ++ rows.map line ++ note footer).flatMap fun l => l ++ ['\n'] := by
    unfold savetxt
    rw [hnote, hnote, hbody, List.flatMap_append, List.flatMap_append, List.flatMap_map (f := line)]
  have hlines : fileLines (savetxt fmt delimiter ['\n'] header footer (comment ++ tail) a) =
      (note header ++ rows.map line ++ note footer).map stripCr := by
    have := fileLines_flatMap hfree []
    rw [List.append_nil, fileLines_nil, List.append_nil] at this
    rw [htext, this]
  have hfields : ∀ r ∈ rows, fieldsOf readDelimiter (line r) = r.map fmt := by
    intro r hr
    unfold fieldsOf
    rw [htrim r hr]
    dsimp only
    rcases hd2 with ⟨rfl, hs⟩ | ⟨rfl, hs⟩
    · rw [if_pos (by rfl)]
      exact splitWhitespace_intercalate hd0 hs (hline_ne r hr) (hword r hr)
    · obtain ⟨c, sep, rfl⟩ := List.exists_cons_of_ne_nil hd0
      rw [if_neg (by simp)]
      simp only [line]
      rw [splitStr_intercalate (hline_ne r hr)]
      · conv_rhs => rw [← List.map_id (r.map fmt)]
        exact List.map_congr_left fun w hw => trimStr_no_space (hword r hr w hw).2
      · intro w hw
        obtain ⟨x, hx, rfl⟩ := List.mem_map.1 hw
        exact hs c (by simp) x (hmem r hr x hx)
  have hrows : rows.map (fun r => r.map fmt) =
      (dataLines (isDataLine comment) 0 0 none (fileLines (savetxt fmt delimiter ['\n'] header footer (comment ++ tail) a))).map
        fun l => selectCols none (fieldsOf readDelimiter l) := by
    rw [hlines]
    unfold dataLines
    rw [Nat.sub_zero, List.take_length, List.drop_zero]
    show _ = (List.filter _ _).map _
    rw [List.filter_map, List.map_map]
    have e1 : (isDataLine comment ∘ stripCr) = isDataLine comment := funext fun l => isDataLine_stripCr comment l
    have e2 : ∀ t, (note t).filter (isDataLine comment) = [] := fun t =>
      List.filter_eq_nil_iff.2 fun l hl => by rw [hskip t l hl]; simp
    have e3 : (rows.map line).filter (isDataLine comment) = rows.map line := List.filter_eq_self.2 fun l hl => by
      obtain ⟨r, hr, rfl⟩ := List.mem_map.1 hl
      exact hdata r hr
    rw [e1, List.filter_append, List.filter_append, e2, e2, e3, List.nil_append, List.append_nil, List.map_map]
    refine List.map_congr_left fun r hr => ?_
    show r.map fmt = fieldsOf readDelimiter (stripCr (line r))
    rw [fieldsOf_stripCr, hfields r hr]
  rw [C75_load parse comment readDelimiter 0 none none _ _ _ hrows]
  refine ⟨m, rows, ?_, ?_⟩
  · unfold Reads
    rw [List.forall₂_map_left_iff, List.forall₂_same]
    intro r hr
    refine ⟨by rw [List.length_map, hrow r hr], ?_⟩
    rw [List.forall₂_map_left_iff, List.forall₂_same]
    exact fun x hx => (hfmt x (hmem r hr x hx)).1
  · have hne : ¬ (rows.map (fun r => r.map fmt) = []) := by
      intro e
      rw [List.map_eq_nil_iff] at e
      rw [e] at hlen
      simp at hlen
      omega
    rw [if_neg hne, hflat, List.length_map, hlen]

/-- A two by three table of naturals. -/
def saved23 : Nd Nat := ⟨[2, 3], fun i => 10 * i.getD 0 0 + i.getD 1 0⟩

example : String.ofList (savetxt showNat [','] ['\n'] "a\nb".toList [] "# ".toList saved23) = "# a\n# b\n0,1,2\n10,11,12\n" := by
  decide +kernel
example : (loadtxt parseUsize ['#'] [','] 0 none none (savetxt showNat [','] ['\n'] "a\nb".toList [] "# ".toList saved23)).map
    (fun a => (a.shape, a.data)) = some ([2, 3], [0, 1, 2, 10, 11, 12]) := by decide +kernel
example : ∀ x ∈ saved23.toList, parseUsize (showNat x) = some x ∧ showNat x ≠ [] ∧ (∀ c ∈ showNat x, isSpaceChar c = false) ∧
    '#' ∉ showNat x ∧ ',' ∉ showNat x := by decide +kernel

/-- NumPy drops axes of length one and gives an empty file one axis; `loadtxt` does so only for columns. -/
theorem C75_shape_counterexample :
    (loadtxt parseUsize ['#'] [] 0 none none "1 2 3\n".toList).map Arr.shape = some [1, 3] ∧ tableShape 1 3 = [3] ∧
    (loadtxt parseUsize ['#'] [] 0 none none "7\n".toList).map Arr.shape = some [1] ∧ tableShape 1 1 = [] ∧
    (loadtxt parseUsize ['#'] [] 0 none none [] ).map Arr.shape = some [0, 0] ∧ tableShape 0 0 = [0] := by decide +kernel

/-- With at least two rows, the shape is NumPy's. -/
theorem C75_shape_partial {α : Type} (parse : List Char → Option α) (comments delimiter : List Char) (skiprows : Nat)
    (usecols : Option (List Nat)) (max : Option Nat) (text : List Char) (a : Arr α)
    (h : loadtxt parse comments delimiter skiprows usecols max text = some a) (k : Nat)
    (hk : (dataLines (isDataLine comments) skiprows 0 max (fileLines text)).length = k + 2) :
    ∃ m, a.shape = tableShape (k + 2) m ∧ a.data.length = Spec.size a.shape := by
  obtain ⟨m, vals, hv, rfl⟩ := (C75_load parse comments delimiter skiprows usecols max text a _ rfl).1 h
  have hl := hk
  rw [← List.length_map (f := fun line => selectCols usecols (fieldsOf delimiter line))] at hl
  generalize (dataLines (isDataLine comments) skiprows 0 max (fileLines text)).map
    (fun line => selectCols usecols (fieldsOf delimiter line)) = rows at hl hv ⊢
  have hne : rows ≠ [] := by
    rintro rfl
    simp at hl
  have hvl : vals.length = k + 2 := by rw [← hl]; exact hv.length_eq.symm
  have hvm : ∀ x ∈ vals, x.length = m := by
    unfold Reads at hv
    intro x hx
    obtain ⟨i, hi, rfl⟩ := List.mem_iff_getElem.1 hx
    have := (List.forall₂_iff_get.1 hv).2 i (by rw [hl]; omega) hi
    simp only [List.get_eq_getElem] at this
    rw [← this.2.length_eq, this.1]
  rw [if_neg hne, hl]
  refine ⟨m, ?_, ?_⟩
  · unfold tableShape
    have z0 : ¬ k + 2 = 0 := by omega
    have z1 : ¬ k + 2 = 1 := by omega
    rw [if_neg z0, if_neg z1]
    by_cases h1 : m = 1
    · simp [h1]
    · simp [h1]
  · show vals.flatten.length = _
    rw [flatten_length_const hvm, hvl]
    by_cases h1 : m = 1
    · simp [h1, Spec.size]
    · simp [h1, Spec.size]

example : (loadtxt parseUsize ['#'] [] 0 none none "1 2 3\n4 5 6\n".toList).map Arr.shape = some (tableShape 2 3) := by
  decide +kernel

/-- A comment after the numbers is not recognised: the file is refused. -/
theorem C75_inline_comment_counterexample :
    (loadtxt parseUsize ['#'] [] 0 none none "1 2 # first\n".toList).isNone = true ∧
    (loadtxt parseUsize ['#'] [] 0 none none "1 2\n".toList).map Arr.data = some [1, 2] := by decide +kernel

/-- A column that no row has is left out silently. -/
theorem C75_usecols_counterexample :
    (loadtxt parseUsize ['#'] [] 0 (some [0, 5]) none "1 2\n3 4\n".toList).map (fun a => (a.shape, a.data)) =
      some ([2], [1, 3]) := by decide +kernel

/-- With columns that every row has, exactly those columns are used, in the order given. -/
theorem C75_usecols_partial (cols : List Nat) (values : List (List Char)) (h : ∀ i ∈ cols, i < values.length) :
    (selectCols (some cols) values).length = cols.length ∧
      ∀ k i : Nat, cols[k]? = some i → (selectCols (some cols) values)[k]? = values[i]? := by
  have e : (selectCols (some cols) values).map some = cols.map fun i => values[i]? := by
    unfold selectCols
    dsimp only
    induction cols with
    | nil => rfl
    | cons i cols ih =>
      have hi := h i (by simp)
      rw [List.filterMap_cons, List.getElem?_eq_getElem hi]
      simp only [List.map_cons]
      rw [ih (fun j hj => h j (List.mem_cons_of_mem _ hj)), List.getElem?_eq_getElem hi]
  refine ⟨by simpa using congrArg List.length e, ?_⟩
  intro k i hk
  have := congrArg (fun l => l[k]?) e
  simp only [List.getElem?_map, hk, Option.map_some] at this
  cases hs : (selectCols (some cols) values)[k]? with
  | none => rw [hs] at this; simp at this
  | some v =>
    rw [hs] at this
    simpa using this

/-! ### fromfile and tofile with a separator -/

/-- Elements written with a separator are read back: as many as asked for, or all. -/
theorem C75_separated {α : Type} (fmt : α → List Char) (parse : List Char → Option α) (a : Nd α) (count : Int)
    (c : Char) (sep : List Char)
    (hfmt : ∀ x ∈ a.toList, parse (fmt x) = some x ∧ fmt x ≠ [] ∧ (∀ d ∈ fmt x, isSpaceChar d = false) ∧ c ∉ fmt x) :
    fromfileText parse count (c :: sep) (tofileText fmt (c :: sep) a) =
      if count < 0 then a.toList else a.toList.take count.toNat := by
  have htext : tofileText fmt (c :: sep) a = List.intercalate (c :: sep) (a.toList.map fmt) := by
    have := rowText_eq (c :: sep) [] (a.toList.map fmt)
    unfold rowText at this
    rw [List.append_nil, List.append_nil] at this
    rw [← this]
    unfold tofileText
    rw [List.zipIdx_map, List.flatMap_map]
    rfl
  have hvals : (splitStr (c :: sep) (tofileText fmt (c :: sep) a)).filterMap
      (fun s => if (trimStr s).isEmpty then none else parse (trimStr s)) = a.toList := by
    rw [htext]
    by_cases he : a.toList = []
    · rw [he]
      rfl
    · rw [splitStr_intercalate (by simpa using he)]
      · rw [List.filterMap_map]
        conv_rhs => rw [← List.filterMap_some (l := a.toList)]
        refine List.filterMap_congr fun x hx => ?_
        obtain ⟨h1, h2, h3, -⟩ := hfmt x hx
        show (if (trimStr (fmt x)).isEmpty then none else parse (trimStr (fmt x))) = some x
        rw [trimStr_no_space h3, if_neg (by simpa using h2), h1]
      · intro w hw
        obtain ⟨x, hx, rfl⟩ := List.mem_map.1 hw
        exact (hfmt x hx).2.2.2
  unfold fromfileText
  rw [hvals]
  dsimp only
  split
  · rw [List.take_length]
  · rw [← List.take_eq_take_min]

example : fromfileText parseUsize 4 "; ".toList (tofileText showNat "; ".toList saved23) = [0, 1, 2, 10] := by decide +kernel

/-- What is not a number is left out silently, so later numbers move forward; NumPy stops there. -/
theorem C75_separated_counterexample : fromfileText parseUsize (-1) [' '] "1 x 3".toList = [1, 3] := by decide +kernel

/-! ### Formats -/

/-- `%.ne`, `%.nf` and `%.ng` print with precision `n`. -/
theorem C75_format_partial (n : Nat) (h : n < 2 ^ 64) :
    numFmt ("%.".toList ++ showNat n ++ ['e']) = .sci n ∧ numFmt ("%.".toList ++ showNat n ++ ['f']) = .fixed n ∧
      numFmt ("%.".toList ++ showNat n ++ ['g']) = .general n := by
  have hd : ∀ c : Char, fmtDigits ("%.".toList ++ showNat n ++ [c]) = some n := by
    intro c
    unfold fmtDigits
    have e : ((("%.".toList ++ showNat n ++ [c]).drop 2).dropLast) = showNat n := by
      show (showNat n ++ [c]).dropLast = _
      rw [List.dropLast_concat]
    rw [e]
    exact parseUsize_digits (showNat_digits n) (parseDigits_showNat n) h
  have hp : ∀ c : Char, "%.".toList.isPrefixOf ("%.".toList ++ showNat n ++ [c]) = true := by
    intro c
    rw [List.isPrefixOf_iff_prefix, List.append_assoc]
    exact ⟨_, rfl⟩
  have hl : ∀ c : Char, ("%.".toList ++ showNat n ++ [c]).getLast? = some c := by
    intro c
    exact List.getLast?_concat
  have hne : ∀ c : Char, c ≠ 'e' → (("%.".toList ++ showNat n ++ [c]).isEmpty || ("%.".toList ++ showNat n ++ [c]) == "%.18e".toList) = false := by
    intro c hc
    have h1 : ("%.".toList ++ showNat n ++ [c]) ≠ "%.18e".toList := by
      intro e
      have := congrArg List.getLast? e
      rw [hl] at this
      exact hc (Option.some.inj this)
    have h2 : ("%.".toList ++ showNat n ++ [c]).isEmpty = false := rfl
    rw [h2, Bool.false_or]
    exact beq_eq_false_iff_ne.2 h1
  refine ⟨?_, ?_, ?_⟩
  · unfold numFmt
    split
    · rename_i h18
      have h18 : ("%.".toList ++ showNat n ++ ['e']) = "%.18e".toList := by
        have h2 : ("%.".toList ++ showNat n ++ ['e']).isEmpty = false := rfl
        rw [h2, Bool.false_or] at h18
        exact beq_iff_eq.1 h18
      have := hd 'e'
      rw [h18] at this
      have e : fmtDigits "%.18e".toList = some 18 := by decide +kernel
      rw [e] at this
      rw [Option.some.inj this]
    · rw [hp, hl, hd]
      rfl
  · unfold numFmt
    rw [hne 'f' (by decide), hp, hl, hd]
    rfl
  · unfold numFmt
    rw [hne 'g' (by decide), hp, hl, hd]
    rfl

example : numFmt "%.3f".toList = .fixed 3 := by decide +kernel

/-- A width, or a format without precision, is ignored. -/
theorem C75_format_counterexample :
    numFmt "%8.3f".toList = .shortest ∧ numFmt "%e".toList = .shortest ∧ numFmt "%f".toList = .shortest := by decide +kernel

end Props
