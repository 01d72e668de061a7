import Verif.Model.Gufunc
import Verif.Lemmas.Elementwise
import Verif.Lemmas.Broadcast
import Verif.Lemmas.Cumulative
/-!
# Lemmas: generalised ufuncs
-/

namespace Rumpy
open Spec

/-! ### Text -/

theorem dropWhile_blank {l x : List Char} (h : Blank l) (hx : ∀ c, x.head? = some c → ¬ IsSpace c) :
    (l ++ x).dropWhile (fun c => decide (IsSpace c)) = x := by
  induction l with
  | nil =>
    cases x with
    | nil => rfl
    | cons c x => exact List.dropWhile_cons_of_neg (by simpa using hx c rfl)
  | cons c l ih =>
    rw [List.cons_append, List.dropWhile_cons_of_pos (by simpa using h c (by simp))]
    exact ih fun d hd => h d (by simp [hd])

theorem _root_.Spec.Blank.reverse {l : List Char} (h : Blank l) : Blank l.reverse := fun c hc => h c (by simpa using hc)

/-- White space around a text that neither begins nor ends with white space is removed. -/
theorem trim_padded {l x r : List Char} (hl : Blank l) (hr : Blank r)
    (hx : ∀ c, x.head? = some c → ¬ IsSpace c) (hx' : ∀ c, x.getLast? = some c → ¬ IsSpace c) :
    trim (l ++ x ++ r) = x := by
  unfold trim
  cases x with
  | nil =>
    have : Blank (l ++ [] ++ r) := by
      intro c hc
      simp only [List.append_nil, List.mem_append] at hc
      rcases hc with hc | hc
      · exact hl c hc
      · exact hr c hc
    have e := dropWhile_blank (x := []) this (by simp)
    rw [List.append_nil] at e
    rw [e]; rfl
  | cons c x =>
    rw [List.append_assoc, dropWhile_blank hl (by simpa using hx c rfl), List.reverse_append,
      dropWhile_blank hr.reverse (fun d hd => hx' d (by rwa [List.head?_reverse] at hd)), List.reverse_reverse]

theorem _root_.Spec.IsName.head {n : List Char} (h : IsName n) : ∀ c, n.head? = some c → ¬ IsSpace c :=
  fun c hc => (h.2 c (List.mem_of_mem_head? hc)).1

theorem _root_.Spec.IsName.last {n : List Char} (h : IsName n) : ∀ c, n.getLast? = some c → ¬ IsSpace c :=
  fun c hc => (h.2 c (List.mem_of_mem_getLast? hc)).1

theorem trim_name {n s : List Char} (h : IsName n) (hs : Padded n s) : trim s = n := by
  obtain ⟨l, r, hl, hr, rfl⟩ := hs
  exact trim_padded hl hr h.head h.last

theorem splitOn_ne_nil (c : Char) (s : List Char) : splitOn c s ≠ [] := by
  cases s with
  | nil => simp [splitOn]
  | cons x xs =>
    unfold splitOn
    split
    · simp
    · split <;> simp

theorem splitOn_plain {c : Char} {s : List Char} (h : c ∉ s) : splitOn c s = [s] := by
  induction s with
  | nil => rfl
  | cons x xs ih =>
    simp only [List.mem_cons, not_or] at h
    unfold splitOn
    rw [if_neg (fun e => h.1 e.symm), ih h.2]

theorem splitOn_sep {c : Char} {s : List Char} (h : c ∉ s) (t : List Char) :
    splitOn c (s ++ c :: t) = s :: splitOn c t := by
  induction s with
  | nil => simp [splitOn]
  | cons x xs ih =>
    simp only [List.mem_cons, not_or] at h
    rw [List.cons_append]
    rw [splitOn, if_neg (fun e => h.1 e.symm), ih h.2]

theorem splitOn_commaJoin {ts : List (List Char)} (hne : ts ≠ []) (h : ∀ t ∈ ts, ',' ∉ t) :
    splitOn ',' (commaJoin ts) = ts := by
  induction ts with
  | nil => exact absurd rfl hne
  | cons t ts ih =>
    cases ts with
    | nil => exact splitOn_plain (h t (by simp))
    | cons u r =>
      rw [commaJoin, splitOn_sep (h t (by simp)), ih (by simp) fun x hx => h x (by simp [hx])]

theorem not_space_comma : ¬ IsSpace ',' := by decide
theorem not_space_open : ¬ IsSpace '(' := by decide
theorem not_space_close : ¬ IsSpace ')' := by decide
theorem not_space_gt : ¬ IsSpace '>' := by decide
theorem not_space_minus : ¬ IsSpace '-' := by decide

theorem _root_.Spec.Blank.notMem {l : List Char} (h : Blank l) {c : Char} (hc : ¬ IsSpace c) : c ∉ l := fun hm => hc (h c hm)

theorem _root_.Spec.Padded.notMem {n s : List Char} (hs : Padded n s) {c : Char} (hc : ¬ IsSpace c) (hn : c ∉ n) : c ∉ s := by
  obtain ⟨l, r, hl, hr, rfl⟩ := hs
  simp [hl.notMem hc, hr.notMem hc, hn]

theorem _root_.Spec.IsName.notMem {n : List Char} (h : IsName n) {c : Char} (hc : c = '(' ∨ c = ')' ∨ c = ',' ∨ c = '>') : c ∉ n := by
  intro hm
  obtain ⟨-, h1, h2, h3, h4⟩ := h.2 c hm
  rcases hc with e | e | e | e <;> contradiction

theorem mem_commaJoin {ts : List (List Char)} {c : Char} (h : c ∈ commaJoin ts) : c = ',' ∨ ∃ t ∈ ts, c ∈ t := by
  induction ts with
  | nil => simp [commaJoin] at h
  | cons t ts ih =>
    cases ts with
    | nil => exact Or.inr ⟨t, by simp, h⟩
    | cons u r =>
      rw [commaJoin] at h
      simp only [List.mem_append, List.mem_cons] at h
      rcases h with h | h | h
      · exact Or.inr ⟨t, by simp, h⟩
      · exact Or.inl h
      · rcases ih h with h | ⟨x, hx, h⟩
        · exact Or.inl h
        · exact Or.inr ⟨x, List.mem_cons_of_mem _ hx, h⟩

theorem forall₂_mem_right {R : β → γ → Prop} {l : List β} {l' : List γ} (h : List.Forall₂ R l l') {y : γ} (hy : y ∈ l') :
    ∃ x ∈ l, R x y := by
  induction h with
  | nil => simp at hy
  | cons hr _ ih =>
    rcases List.mem_cons.1 hy with rfl | hy
    · exact ⟨_, List.mem_cons_self, hr⟩
    · obtain ⟨x, hx, hr⟩ := ih hy
      exact ⟨x, List.mem_cons_of_mem _ hx, hr⟩

theorem forall₂_map_trim {names ts : List (List Char)} (h : List.Forall₂ Padded names ts) (hn : ∀ n ∈ names, IsName n) :
    ts.map trim = names := by
  induction h with
  | nil => rfl
  | cons hr _ ih =>
    rw [List.map_cons, trim_name (hn _ (by simp)) hr, ih fun n h => hn n (by simp [h])]

/-- The text between the parentheses: trimming it keeps the names. -/
theorem trim_commaJoin {names ts : List (List Char)} (h : List.Forall₂ Padded names ts) (hn : ∀ n ∈ names, IsName n)
    (hne : names ≠ []) : ∃ ts', List.Forall₂ Padded names ts' ∧ trim (commaJoin ts) = commaJoin ts' ∧ commaJoin ts' ≠ [] := by
  -- strip on the left, then on the right
  have left : ∀ {names ts : List (List Char)}, List.Forall₂ Padded names ts → (∀ n ∈ names, IsName n) → names ≠ [] →
      ∃ l ts', Blank l ∧ List.Forall₂ Padded names ts' ∧ commaJoin ts = l ++ commaJoin ts' ∧
        (∀ c, (commaJoin ts').head? = some c → ¬ IsSpace c) ∧ commaJoin ts' ≠ [] := by
    intro names ts h hn hne
    cases h with
    | nil => exact absurd rfl hne
    | @cons n t names ts hr h =>
      obtain ⟨l, r, hl, hr, rfl⟩ := hr
      have hnm := hn n (by simp)
      refine ⟨l, (n ++ r) :: ts, hl, List.Forall₂.cons ⟨[], r, by simp [Blank], hr, by simp⟩ h, ?_, ?_, ?_⟩
      · cases ts <;> simp [commaJoin]
      · intro c hc
        have hx : (commaJoin ((n ++ r) :: ts)).head? = n.head? := by
          cases hn' : n with
          | nil => exact absurd hn' hnm.1
          | cons a b => cases ts <;> simp [commaJoin]
        rw [hx] at hc
        exact hnm.head c hc
      · cases hn' : n with
        | nil => exact absurd hn' hnm.1
        | cons a b => cases ts <;> simp [commaJoin]
  have right : ∀ {names ts : List (List Char)}, List.Forall₂ Padded names ts → (∀ n ∈ names, IsName n) → names ≠ [] →
      ∃ r ts', Blank r ∧ List.Forall₂ Padded names ts' ∧ commaJoin ts = commaJoin ts' ++ r ∧
        (∀ c, (commaJoin ts').getLast? = some c → ¬ IsSpace c) ∧ commaJoin ts' ≠ [] ∧
        (commaJoin ts').head? = (commaJoin ts).head? := by
    intro names ts h hn hne
    induction h with
    | nil => exact absurd rfl hne
    | @cons n t names ts hr h ih =>
      have hnm := hn n (by simp)
      cases h with
      | nil =>
        obtain ⟨l, r, hl, hr, rfl⟩ := hr
        refine ⟨r, [l ++ n], hr, List.Forall₂.cons ⟨l, [], hl, by simp [Blank], by simp⟩ .nil, by simp [commaJoin], ?_, ?_, ?_⟩
        · intro c hc
          simp only [commaJoin] at hc
          rw [List.getLast?_append_of_ne_nil _ hnm.1] at hc
          exact hnm.last c hc
        · simp [commaJoin, hnm.1]
        · cases hn' : n with
          | nil => exact absurd hn' hnm.1
          | cons a b => cases l <;> simp [commaJoin]
      | @cons n2 t2 names ts hr2 h2 =>
        obtain ⟨r, ts', hb, hf, he, hl, hne', hh⟩ := ih (fun n h => hn n (by simp [h])) (by simp)
        cases hf with
        | @cons _ t3 _ ts3 hr3 hf3 =>
          refine ⟨r, t :: t3 :: ts3, hb, .cons hr (.cons hr3 hf3), ?_, ?_, ?_, ?_⟩
          · rw [commaJoin, he, commaJoin]; simp
          · intro c hc
            rw [commaJoin, List.getLast?_append_of_ne_nil _ (by simp)] at hc
            rw [show ',' :: commaJoin (t3 :: ts3) = [','] ++ commaJoin (t3 :: ts3) from rfl,
              List.getLast?_append_of_ne_nil _ hne'] at hc
            exact hl c hc
          · simp [commaJoin]
          · cases t <;> simp [commaJoin]
  obtain ⟨l, ts1, hl, h1, e1, hd1, ne1⟩ := left h hn hne
  obtain ⟨r, ts2, hr, h2, e2, hl2, ne2, hd2⟩ := right h1 hn hne
  refine ⟨ts2, h2, ?_, ne2⟩
  rw [e1, e2, ← List.append_assoc]
  exact trim_padded hl hr (by rw [hd2]; exact hd1) hl2

/-- `CoreDims::parse` reads every written form of a list of names. -/
theorem parseCoreDims_text {names : List (List Char)} {s : List Char} (h : DimsText names s) :
    parseCoreDims s = some names := by
  obtain ⟨hn, body, ts, hf, he, hb, l, r, hl, hr, rfl⟩ := h
  unfold parseCoreDims
  have ht : trim (l ++ ('(' :: body ++ [')']) ++ r) = '(' :: body ++ [')'] :=
    trim_padded hl hr (by simp [not_space_open]) (by
      intro c hc
      rw [List.getLast?_append_of_ne_nil _ (by simp)] at hc
      simp only [List.getLast?_singleton, Option.some.injEq] at hc
      rw [← hc]; exact not_space_close)
  rw [ht]
  dsimp only
  have hlast : ('(' :: body ++ [')']).getLast? = some ')' := by rw [List.getLast?_append_of_ne_nil _ (by simp)]; rfl
  rw [if_neg (by rw [hlast]; simp), List.cons_append, List.drop_succ_cons, List.drop_zero, List.dropLast_concat]
  by_cases hne : names = []
  · have : trim body = [] := by
      have := trim_padded (l := body) (x := []) (r := []) (he hne) (by simp [Blank]) (by simp) (by simp)
      simpa using this
    rw [this, hne]; rfl
  · rw [hb hne]
    obtain ⟨ts', hf', e, hne'⟩ := trim_commaJoin hf hn hne
    have hx : (commaJoin ts').isEmpty = false := by simpa using hne'
    rw [e, hx]
    simp only [Bool.false_eq_true, if_false]
    have hts : ts' ≠ [] := by
      intro e
      rw [e] at hf'
      cases hf'
      exact hne rfl
    have hc : ∀ t ∈ ts', ',' ∉ t := fun t ht => by
      obtain ⟨n, hm, hp⟩ := forall₂_mem_right hf' ht
      exact hp.notMem not_space_comma ((hn n hm).notMem (by simp))
    rw [splitOn_commaJoin hts hc, forall₂_map_trim hf' hn, if_neg]
    simp only [List.any_eq_true, not_exists, not_and, Bool.not_eq_true]
    intro n hm
    simpa using (hn n hm).1

/-! ### The list of operands -/

theorem loop_plain {depth : Int} : ∀ (xs : List Char) (rest acc : List Char) (res : List (List (List Char))),
    (∀ c ∈ xs, c ≠ '(' ∧ c ≠ ')' ∧ (c = ',' → depth ≠ 0)) →
    parseListLoop (xs ++ rest) depth acc res = parseListLoop rest depth (xs.reverse ++ acc) res
  | [], _, _, _, _ => rfl
  | c :: xs, rest, acc, res, h => by
    obtain ⟨h1, h2, h3⟩ := h c (by simp)
    rw [List.cons_append, parseListLoop, if_neg h1, if_neg h2, if_neg (fun e => h3 e.1 e.2),
      loop_plain xs rest _ res fun d hd => h d (by simp [hd])]
    simp

theorem _root_.Spec.Blank.plain {l : List Char} (h : Blank l) (depth : Int) :
    ∀ c ∈ l, c ≠ '(' ∧ c ≠ ')' ∧ (c = ',' → depth ≠ 0) := fun c hc =>
  ⟨fun e => not_space_open (e ▸ h c hc), fun e => not_space_close (e ▸ h c hc), fun e => absurd (e ▸ h c hc) not_space_comma⟩

/-- The text between the parentheses has no parenthesis. -/
theorem body_plain {names ts : List (List Char)} {body : List Char} (hn : ∀ n ∈ names, IsName n)
    (hf : List.Forall₂ Padded names ts) (he : names = [] → Blank body) (hb : names ≠ [] → body = commaJoin ts) :
    ∀ c ∈ body, c ≠ '(' ∧ c ≠ ')' ∧ c ≠ '>' := by
  intro c hc
  by_cases hne : names = []
  · have := he hne c hc
    refine ⟨fun e => ?_, fun e => ?_, fun e => ?_⟩ <;> rw [e] at this
    · exact not_space_open this
    · exact not_space_close this
    · exact not_space_gt this
  · rw [hb hne] at hc
    rcases mem_commaJoin hc with rfl | ⟨t, ht, hc⟩
    · decide
    · obtain ⟨n, hm, hp⟩ := forall₂_mem_right hf ht
      have hn := hn n hm
      refine ⟨fun e => ?_, fun e => ?_, fun e => ?_⟩ <;> subst e
      · exact hp.notMem not_space_open (hn.notMem (by simp)) hc
      · exact hp.notMem not_space_close (hn.notMem (by simp)) hc
      · exact hp.notMem not_space_gt (hn.notMem (by simp)) hc

theorem loop_operand {names : List (List Char)} {s : List Char} (h : DimsText names s) (rest : List Char)
    (res : List (List (List Char))) :
    ∃ acc, parseListLoop (s ++ rest) 0 [] res = parseListLoop rest 0 acc (res ++ [names]) := by
  obtain ⟨hn, body, ts, hf, he, hb, l, r, hl, hr, rfl⟩ := h
  have hp : parseCoreDims (l ++ ('(' :: body ++ [')'])) = some names := by
    apply parseCoreDims_text
    exact ⟨hn, body, ts, hf, he, hb, l, [], hl, by simp [Blank], by simp⟩
  refine ⟨r.reverse ++ (l ++ ('(' :: body ++ [')'])).reverse, ?_⟩
  have hbody := body_plain hn hf he hb
  rw [show l ++ ('(' :: body ++ [')']) ++ r ++ rest = l ++ ('(' :: (body ++ (')' :: (r ++ rest)))) by simp,
    loop_plain l _ _ _ (hl.plain 0), parseListLoop, if_pos rfl,
    loop_plain body _ _ _ (fun c hc => ⟨(hbody c hc).1, (hbody c hc).2.1, fun _ => by decide⟩),
    parseListLoop, if_neg (by decide), if_pos rfl, if_pos (by decide)]
  have e : (')' :: (body.reverse ++ '(' :: (l.reverse ++ []))).reverse = l ++ ('(' :: body ++ [')']) := by simp
  rw [e, hp]
  dsimp only
  rw [show (0 : Int) + 1 - 1 = 0 by decide, loop_plain r _ _ _ (hr.plain 0)]
  simp

theorem loop_operands {ops : List (List (List Char))} {ts : List (List Char)} (h : List.Forall₂ DimsText ops ts)
    (hne : ops ≠ []) : ∀ res, parseListLoop (commaJoin ts) 0 [] res = some (0, res ++ ops) := by
  induction h with
  | nil => exact absurd rfl hne
  | @cons o t ops ts hr h ih =>
    intro res
    cases h with
    | nil =>
      obtain ⟨acc, e⟩ := loop_operand hr [] res
      rw [commaJoin, ← List.append_nil t, e, parseListLoop]
    | @cons o2 t2 ops ts hr2 h =>
      obtain ⟨acc, e⟩ := loop_operand hr (',' :: commaJoin (t2 :: ts)) res
      rw [commaJoin, e, parseListLoop, if_neg (by decide), if_neg (by decide), if_pos ⟨rfl, rfl⟩, ih (by simp)]
      simp

/-- White space before the first operand can be removed. -/
theorem operands_left {ops : List (List (List Char))} {ts : List (List Char)} (h : List.Forall₂ DimsText ops ts)
    (hne : ops ≠ []) : ∃ l ts', Blank l ∧ List.Forall₂ DimsText ops ts' ∧ commaJoin ts = l ++ commaJoin ts' ∧
      (commaJoin ts').head? = some '(' := by
  cases h with
  | nil => exact absurd rfl hne
  | @cons o t ops ts hr h =>
    obtain ⟨hn, body, ds, hf, he, hb, l, r, hl, hr, rfl⟩ := hr
    refine ⟨l, (('(' :: body ++ [')']) ++ r) :: ts, hl, .cons ⟨hn, body, ds, hf, he, hb, [], r, by simp [Blank], hr, by simp⟩ h, ?_, ?_⟩
    · cases ts <;> simp [commaJoin]
    · cases ts <;> simp [commaJoin]

/-- White space after the last operand can be removed. -/
theorem operands_right {ops : List (List (List Char))} {ts : List (List Char)} (h : List.Forall₂ DimsText ops ts)
    (hne : ops ≠ []) : ∃ r ts', Blank r ∧ List.Forall₂ DimsText ops ts' ∧ commaJoin ts = commaJoin ts' ++ r ∧
      (commaJoin ts').getLast? = some ')' ∧ (commaJoin ts').head? = (commaJoin ts).head? := by
  induction h with
  | nil => exact absurd rfl hne
  | @cons o t ops ts hr h ih =>
    cases h with
    | nil =>
      obtain ⟨hn, body, ds, hf, he, hb, l, r, hl, hr, rfl⟩ := hr
      refine ⟨r, [l ++ ('(' :: body ++ [')'])], hr, .cons ⟨hn, body, ds, hf, he, hb, l, [], hl, by simp [Blank], by simp⟩ .nil, ?_, ?_, ?_⟩
      · simp [commaJoin]
      · simp only [commaJoin]
        rw [← List.append_assoc, List.getLast?_append_of_ne_nil _ (by simp)]; rfl
      · cases l <;> simp [commaJoin]
    | @cons o2 t2 ops ts hr2 h =>
      obtain ⟨r, ts', hb, hf, e, hl, hh⟩ := ih (by simp)
      cases hf with
      | @cons _ t3 _ ts3 hr3 hf3 =>
        refine ⟨r, t :: t3 :: ts3, hb, .cons hr (.cons hr3 hf3), ?_, ?_, ?_⟩
        · rw [commaJoin, e, commaJoin]; simp
        · rw [commaJoin, List.getLast?_append_of_ne_nil _ (by simp),
            show ',' :: commaJoin (t3 :: ts3) = [','] ++ commaJoin (t3 :: ts3) from rfl]
          rw [List.getLast?_append_of_ne_nil, hl]
          intro e; rw [e] at hl; simp at hl
        · cases t <;> simp [commaJoin]

theorem trim_blank {s : List Char} (h : Blank s) : trim s = [] := by
  have := trim_padded (l := s) (x := []) (r := []) h (by simp [Blank]) (by simp) (by simp)
  simpa using this

theorem operands_trim {ops : List (List (List Char))} {s : List Char} (h : OperandsText ops s) (hne : ops ≠ []) :
    ∃ l r ts, Blank l ∧ Blank r ∧ List.Forall₂ DimsText ops ts ∧ s = l ++ commaJoin ts ++ r ∧
      (commaJoin ts).head? = some '(' ∧ (commaJoin ts).getLast? = some ')' := by
  obtain ⟨ts, hf, -, e⟩ := h
  rw [e hne]
  obtain ⟨l, ts1, hl, h1, e1, d1⟩ := operands_left hf hne
  obtain ⟨r, ts2, hr, h2, e2, d2, d3⟩ := operands_right h1 hne
  exact ⟨l, r, ts2, hl, hr, h2, by rw [e1, e2]; simp, by rw [d3, d1], d2⟩

theorem parseCoreDimsList_text {ops : List (List (List Char))} {s : List Char} (h : OperandsText ops s) :
    parseCoreDimsList s = some ops := by
  unfold parseCoreDimsList
  by_cases hne : ops = []
  · obtain ⟨ts, hf, e, -⟩ := h
    rw [trim_blank (e hne), hne]; rfl
  · obtain ⟨l, r, ts, hl, hr, hf, rfl, d1, d2⟩ := operands_trim h hne
    rw [trim_padded hl hr (by rw [d1]; simp [not_space_open]) (by rw [d2]; simp [not_space_close])]
    have hx : (commaJoin ts).isEmpty = false := by
      cases hc : commaJoin ts with
      | nil => rw [hc] at d1; simp at d1
      | cons a b => rfl
    dsimp only
    rw [hx]
    simp only [Bool.false_eq_true, if_false]
    rw [loop_operands hf hne]
    simp

theorem splitArrow_text : ∀ (a b : List Char), (∀ c ∈ a, c ≠ '>') →
    splitArrow (a ++ '-' :: '>' :: b) = some (a, b)
  | [], b, _ => by simp [splitArrow]
  | c :: a, b, h => by
    rw [List.cons_append, splitArrow, splitArrow_text a b fun d hd => h d (by simp [hd]), if_neg]
    · rfl
    · rintro ⟨-, e⟩
      cases a with
      | nil => simp at e
      | cons d a =>
        simp only [List.cons_append, List.head?_cons, Option.some.injEq] at e
        exact h d (by simp) e

theorem _root_.Spec.DimsText.no_gt {names : List (List Char)} {s : List Char} (h : DimsText names s) : '>' ∉ s := by
  obtain ⟨hn, body, ts, hf, he, hb, l, r, hl, hr, rfl⟩ := h
  have := body_plain hn hf he hb
  have h1 := hl.notMem not_space_gt
  have h2 := hr.notMem not_space_gt
  have h3 : '>' ∉ body := fun hc => (this _ hc).2.2 rfl
  simp [h1, h2, h3]

theorem commaJoin_no_gt {ops : List (List (List Char))} {ts : List (List Char)} (h : List.Forall₂ DimsText ops ts) :
    '>' ∉ commaJoin ts := by
  intro hc
  rcases mem_commaJoin hc with e | ⟨t, ht, hc⟩
  · exact absurd e (by decide)
  · obtain ⟨n, -, hd⟩ := forall₂_mem_right h ht
    exact hd.no_gt hc

/-- Every written form of a signature is read as that signature. -/
theorem parseSignature_text {sig : GuSig} {s : List Char} (h : SigText sig s) : parseSignature s = some sig := by
  obtain ⟨hne, a, b, ha, hb, rfl⟩ := h
  obtain ⟨l, r, ts, hl, hr, hf, rfl, d1, d2⟩ := operands_trim ha hne
  -- the right end of the results
  obtain ⟨b', r', hr', rfl, hb', hlast⟩ : ∃ b' r', Blank r' ∧ b = b' ++ r' ∧ OperandsText sig.outputs b' ∧
      (∀ c, ('-' :: '>' :: b').getLast? = some c → ¬ IsSpace c) := by
    by_cases hno : sig.outputs = []
    · obtain ⟨tb, hfb, eb, -⟩ := hb
      exact ⟨[], b, eb hno, by simp, ⟨[], by rw [hno]; exact .nil, by simp [Blank], fun h => absurd hno h⟩, by simp [not_space_gt]⟩
    · obtain ⟨lb, rb, tb, hlb, hrb, hfb, eb, e1, e2⟩ := operands_trim hb hno
      obtain ⟨tb0, hfb0, -, eb0⟩ := hb
      refine ⟨lb ++ commaJoin tb, rb, hrb, eb, ?_, ?_⟩
      · clear eb0 hfb0
        generalize sig.outputs = outs at hno hfb ⊢
        cases hfb with
        | nil => exact absurd rfl hno
        | @cons o t ops ts2 hr2 h2 =>
          obtain ⟨hn, body, ds, hfd, he, hbd, l2, r2, hl2, hr2, rfl⟩ := hr2
          refine ⟨(lb ++ l2 ++ ('(' :: body ++ [')']) ++ r2) :: ts2, .cons ⟨hn, body, ds, hfd, he, hbd, lb ++ l2, r2, ?_, hr2, by simp⟩ h2, fun h => absurd h hno, fun _ => ?_⟩
          · intro c hc
            rcases List.mem_append.1 hc with hc | hc
            · exact hlb c hc
            · exact hl2 c hc
          · cases ts2 <;> simp [commaJoin]
      · intro c hc
        rw [show '-' :: '>' :: (lb ++ commaJoin tb) = ('-' :: '>' :: lb) ++ commaJoin tb from rfl,
          List.getLast?_append_of_ne_nil _ (by intro e; rw [e] at e2; simp at e2), e2] at hc
        rw [← Option.some.inj hc]; exact not_space_close
  unfold parseSignature
  have ht : trim (l ++ commaJoin ts ++ r ++ '-' :: '>' :: (b' ++ r')) = commaJoin ts ++ r ++ '-' :: '>' :: b' := by
    have := trim_padded (l := l) (x := commaJoin ts ++ r ++ '-' :: '>' :: b') (r := r') hl hr' ?_ ?_
    · rw [← this]; simp
    · cases hc : commaJoin ts with
      | nil => rw [hc] at d1; simp at d1
      | cons x y =>
        rw [hc] at d1
        simp only [List.head?_cons, Option.some.injEq] at d1
        simp [d1, not_space_open]
    · intro c hc
      rw [List.getLast?_append_of_ne_nil _ (by simp)] at hc
      exact hlast c hc
  rw [ht, splitArrow_text]
  · have e1 : parseCoreDimsList (commaJoin ts ++ r) = some sig.inputs := by
      have : OperandsText sig.inputs (commaJoin ts ++ r) := by
        -- the trailing white space belongs to the last operand
        have : ∀ {ops : List (List (List Char))} {ts : List (List Char)}, List.Forall₂ DimsText ops ts → ops ≠ [] →
            ∃ ts', List.Forall₂ DimsText ops ts' ∧ commaJoin ts ++ r = commaJoin ts' := by
          intro ops ts h hne
          induction h with
          | nil => exact absurd rfl hne
          | @cons o t ops ts hr2 h ih =>
            cases h with
            | nil =>
              obtain ⟨hn, body, ds, hfd, he, hbd, l2, r2, hl2, hr2, rfl⟩ := hr2
              refine ⟨[l2 ++ ('(' :: body ++ [')']) ++ (r2 ++ r)], .cons ⟨hn, body, ds, hfd, he, hbd, l2, r2 ++ r, hl2, ?_, rfl⟩ .nil, by simp [commaJoin]⟩
              intro c hc
              rcases List.mem_append.1 hc with hc | hc
              · exact hr2 c hc
              · exact hr c hc
            | @cons o2 t2 ops ts hr3 h =>
              obtain ⟨ts', hf', e⟩ := ih (by simp)
              cases hf' with
              | @cons _ t4 _ ts4 hr4 hf4 =>
                exact ⟨t :: t4 :: ts4, .cons hr2 (.cons hr4 hf4), by rw [commaJoin, commaJoin, ← e]; simp⟩
        obtain ⟨ts', hf', e⟩ := this hf hne
        exact ⟨ts', hf', fun h => absurd h hne, fun _ => e⟩
      exact parseCoreDimsList_text this
    simp only [Option.bind_eq_bind, Option.bind_some, e1, parseCoreDimsList_text hb']
    rw [if_neg (by simpa using hne)]
  · intro c hc e
    subst e
    rcases List.mem_append.1 hc with hc | hc
    · exact commaJoin_no_gt hf hc
    · exact hr.notMem not_space_gt hc

/-! ### Dimensions -/

theorem isBroadcastAll_cons {s t : List Nat} {ss : List (List Nat)} {r : List Nat} :
    IsBroadcastAll (s :: t :: ss) r ↔ ∃ u, IsBroadcast s t u ∧ IsBroadcastAll (u :: ss) r := by
  constructor
  · rintro ⟨hl, h⟩
    obtain ⟨u, hu, hf⟩ := exists_shape (max s.length t.length) (fun k => if dimR s k = 1 then dimR t k else dimR s k)
    have hul : u.length ≤ r.length := by simp only [List.map_cons, List.foldr_cons] at hl; omega
    refine ⟨u, ⟨hu, fun k hk => ?_⟩, ?_, fun k hk => ?_⟩
    · rw [hf k (by omega)]
      have h1 := (h k (by omega)).1 s (by simp)
      have h2 := (h k (by omega)).1 t (by simp)
      unfold DimBroadcast
      split
      · exact Or.inr (Or.inl ⟨by assumption, rfl⟩)
      · rcases h2 with h2 | h2
        · exact Or.inr (Or.inr ⟨h2, rfl⟩)
        · exact Or.inl ⟨by omega, rfl⟩
    · rw [hl]; simp [hu, Nat.max_assoc]
    · have hku : dimR u k = if dimR s k = 1 then dimR t k else dimR s k := by
        by_cases hk' : k < u.length
        · exact hf k (by omega)
        · rw [dimR_of_le (by omega), dimR_of_le (a := s) (by omega), dimR_of_le (a := t) (by omega)]; rfl
      refine ⟨fun x hx => ?_, ?_⟩
      · rcases List.mem_cons.1 hx with rfl | hx
        · rw [hku]
          split
          · exact (h k hk).1 t (by simp)
          · exact (h k hk).1 s (by simp)
        · exact (h k hk).1 x (by simp [hx])
      · rcases (h k hk).2 with h0 | ⟨x, hx, e⟩
        · exact Or.inl h0
        · simp only [List.mem_cons] at hx
          rcases hx with rfl | rfl | hx
          · by_cases h1 : dimR x k = 1
            · exact Or.inl (by omega)
            · exact Or.inr ⟨u, by simp, by rw [hku, if_neg h1, e]⟩
          · by_cases h1 : dimR s k = 1
            · exact Or.inr ⟨u, by simp, by rw [hku, if_pos h1, e]⟩
            · have := (h k hk).1 s (by simp)
              exact Or.inr ⟨u, by simp, by rw [hku, if_neg h1]; omega⟩
          · exact Or.inr ⟨x, by simp [hx], e⟩
  · rintro ⟨u, hu, hl, h⟩
    refine ⟨by rw [hl]; simp [hu.1, Nat.max_assoc], fun k hk => ?_⟩
    have hd := isBroadcast_full hu k
    have hu' := (h k hk).1 u (by simp)
    refine ⟨fun x hx => ?_, ?_⟩
    · simp only [List.mem_cons] at hx
      rcases hx with rfl | rfl | hx
      · rcases hd with ⟨a, b⟩ | ⟨a, b⟩ | ⟨a, b⟩ <;> omega
      · rcases hd with ⟨a, b⟩ | ⟨a, b⟩ | ⟨a, b⟩ <;> omega
      · exact (h k hk).1 x (by simp [hx])
    · rcases (h k hk).2 with h0 | ⟨x, hx, e⟩
      · exact Or.inl h0
      · rcases List.mem_cons.1 hx with rfl | hx
        · rcases hd with ⟨a, b⟩ | ⟨a, b⟩ | ⟨a, b⟩
          · exact Or.inr ⟨s, by simp, by omega⟩
          · exact Or.inr ⟨t, by simp, by omega⟩
          · exact Or.inr ⟨s, by simp, by omega⟩
        · exact Or.inr ⟨x, by simp [hx], e⟩

theorem isBroadcastAll_one {s r : List Nat} : IsBroadcastAll [s] r ↔ s = r := by
  constructor
  · rintro ⟨hl, h⟩
    simp only [List.map_cons, List.map_nil, List.foldr_cons, List.foldr_nil, Nat.max_zero] at hl
    refine dimR_ext hl.symm fun k hk => ?_
    obtain ⟨h1, h2⟩ := h k (by omega)
    have := h1 s (by simp)
    rcases h2 with h2 | ⟨x, hx, e⟩
    · omega
    · simp only [List.mem_singleton] at hx; rw [← hx, e]
  · rintro rfl
    exact ⟨by simp, fun k _ => ⟨by simp, Or.inr ⟨s, by simp, rfl⟩⟩⟩

/-- `broadcast_multi_shapes` computes the broadcast of all the shapes. -/
theorem broadcastMulti_iff : ∀ {shapes : List (List Nat)} {r : List Nat},
    broadcastMultiShapes shapes = some r ↔ IsBroadcastAll shapes r
  | [], r => by
    simp only [broadcastMultiShapes, Option.some.injEq, IsBroadcastAll, List.map_nil, List.foldr_nil]
    constructor
    · rintro rfl; exact ⟨rfl, by simp⟩
    · rintro ⟨h, -⟩; exact (List.eq_nil_of_length_eq_zero h).symm
  | [s], r => by
    simp only [broadcastMultiShapes, List.foldlM_nil, isBroadcastAll_one]
    exact ⟨fun h => Option.some.inj h, fun h => congrArg some h⟩
  | s :: t :: ss, r => by
    rw [isBroadcastAll_cons]
    have e : broadcastMultiShapes (s :: t :: ss) = (broadcastShapes s t).bind fun u => broadcastMultiShapes (u :: ss) := by
      simp only [broadcastMultiShapes, List.foldlM_cons, Option.bind_eq_bind]
    rw [e, Option.bind_eq_some_iff]
    constructor
    · rintro ⟨u, h1, h2⟩
      exact ⟨u, broadcastShapes_iff.1 h1, broadcastMulti_iff.1 h2⟩
    · rintro ⟨u, h1, h2⟩
      exact ⟨u, broadcastShapes_iff.2 h1, broadcastMulti_iff.2 h2⟩
termination_by shapes => shapes.length

theorem lookup_snoc (m : List (List Char × Nat)) (d k : List Char) (n : Nat) :
    (m ++ [(d, n)]).lookup k = (m.lookup k).or (if k = d then some n else none) := by
  rw [List.lookup_append]
  congr 1
  by_cases h : k = d
  · simp [h]
  · have : (k == d) = false := by simpa using h
    simp [List.lookup_cons, h, this]

/-- Sizes already recorded stay. -/
theorem bindDims_keep : ∀ {names : List (List Char)} {ns : List Nat} {m m' : List (List Char × Nat)},
    bindDims names ns m = some m' → ∀ d n, m.lookup d = some n → m'.lookup d = some n
  | [], ns, m, m', h, d, n, hd => by
    simp only [bindDims, Option.some.injEq] at h
    rwa [← h]
  | _ :: _, [], m, m', h, d, n, hd => by
    simp only [bindDims, Option.some.injEq] at h
    rwa [← h]
  | x :: names, k :: ns, m, m', h, d, n, hd => by
    rw [bindDims] at h
    cases hx : m.lookup x with
    | some e =>
      rw [hx] at h
      dsimp only at h
      by_cases he : e = k
      · rw [if_neg (by simpa using he)] at h
        exact bindDims_keep h d n hd
      · rw [if_pos he] at h; cases h
    | none =>
      rw [hx] at h
      exact bindDims_keep h d n (by rw [lookup_snoc, hd]; rfl)

theorem bindDims_sound : ∀ {names : List (List Char)} {ns : List Nat} {m m' : List (List Char × Nat)},
    bindDims names ns m = some m' → ns.length = names.length →
    (∀ d ∈ names, (m'.lookup d).isSome) ∧ ns = names.map fun d => (m'.lookup d).getD 1
  | [], [], m, m', h, _ => by simp
  | x :: names, k :: ns, m, m', h, hl => by
    rw [bindDims] at h
    have hkeep : ∃ m1, m1.lookup x = some k ∧ bindDims names ns m1 = some m' := by
      cases hx : m.lookup x with
      | some e =>
        rw [hx] at h
        dsimp only at h
        by_cases he : e = k
        · rw [if_neg (by simpa using he)] at h
          exact ⟨m, by rw [hx, he], h⟩
        · rw [if_pos he] at h; cases h
      | none =>
        rw [hx] at h
        exact ⟨m ++ [(x, k)], by rw [lookup_snoc, hx]; simp, h⟩
    obtain ⟨m1, h1, h2⟩ := hkeep
    have h3 := bindDims_keep h2 x k h1
    obtain ⟨h4, h5⟩ := bindDims_sound h2 (by simpa using hl)
    refine ⟨fun d hd => ?_, ?_⟩
    · rcases List.mem_cons.1 hd with rfl | hd
      · rw [h3]; rfl
      · exact h4 d hd
    · rw [List.map_cons, h3, ← h5]; rfl

theorem bindDims_complete {σ : List Char → Nat} : ∀ (names : List (List Char)) (m : List (List Char × Nat)),
    (∀ d n, m.lookup d = some n → σ d = n) →
    ∃ m', bindDims names (names.map σ) m = some m' ∧ (∀ d n, m'.lookup d = some n → σ d = n) ∧
      ∀ d, (m'.lookup d).isSome → d ∈ names ∨ (m.lookup d).isSome
  | [], m, h => ⟨m, rfl, h, fun d hd => Or.inr hd⟩
  | x :: names, m, h => by
    rw [List.map_cons, bindDims]
    cases hx : m.lookup x with
    | some e =>
      dsimp only
      rw [if_neg (by rw [h x e hx]; simp)]
      obtain ⟨m', h1, h2, h3⟩ := bindDims_complete names m h
      exact ⟨m', h1, h2, fun d hd => (h3 d hd).imp (List.mem_cons_of_mem _) id⟩
    | none =>
      dsimp only
      obtain ⟨m', h1, h2, h3⟩ := bindDims_complete names (m ++ [(x, σ x)]) (fun d n hd => by
        rw [lookup_snoc] at hd
        cases hm : m.lookup d with
        | some e => rw [hm] at hd; simp only [Option.some_or, Option.some.injEq] at hd; rw [← hd]; exact h d e hm
        | none =>
          rw [hm, Option.none_or] at hd
          by_cases hdx : d = x
          · rw [if_pos hdx] at hd; rw [hdx]; exact Option.some.inj hd
          · rw [if_neg hdx] at hd; cases hd)
      refine ⟨m', h1, h2, fun d hd => ?_⟩
      rcases h3 d hd with h4 | h4
      · exact Or.inl (List.mem_cons_of_mem _ h4)
      · rw [lookup_snoc] at h4
        by_cases hdx : d = x
        · exact Or.inl (by simp [hdx])
        · rw [if_neg hdx, Option.or_none] at h4
          exact Or.inr h4

theorem bindInputs_keep : ∀ {sig : List (List (List Char))} {shapes : List (List Nat)} {m : List (List Char × Nat)}
    {r : List (List Nat) × List Nat × List (List Char × Nat)},
    bindInputs sig shapes m = some r → ∀ d n, m.lookup d = some n → r.2.2.lookup d = some n
  | [], shapes, m, r, h, d, n, hd => by
    simp only [bindInputs, Option.some.injEq] at h
    rw [← h]; exact hd
  | _ :: _, [], m, r, h, d, n, hd => by
    simp only [bindInputs, Option.some.injEq] at h
    rw [← h]; exact hd
  | names :: sig, s :: shapes, m, r, h, d, n, hd => by
    rw [bindInputs] at h
    by_cases hl : s.length < names.length
    · rw [if_pos hl] at h; cases h
    · rw [if_neg hl] at h
      dsimp only at h
      cases hb : bindDims names (s.drop (s.length - names.length)) m with
      | none => rw [hb] at h; cases h
      | some m' =>
        rw [hb] at h
        simp only [Option.map_eq_some_iff] at h
        obtain ⟨r', h1, rfl⟩ := h
        exact bindInputs_keep h1 d n (bindDims_keep hb d n hd)

theorem bindInputs_sound : ∀ {sig : List (List (List Char))} {shapes : List (List Nat)} {m : List (List Char × Nat)}
    {r : List (List Nat) × List Nat × List (List Char × Nat)},
    bindInputs sig shapes m = some r → shapes.length = sig.length →
    r.1.length = sig.length ∧ r.2.1 = r.1.map List.length ∧
      shapes = List.zipWith (fun l names => l ++ names.map fun d => (r.2.2.lookup d).getD 1) r.1 sig
  | [], [], m, r, h, _ => by
    simp only [bindInputs, Option.some.injEq] at h
    rw [← h]; simp
  | names :: sig, s :: shapes, m, r, h, hlen => by
    rw [bindInputs] at h
    by_cases hl : s.length < names.length
    · rw [if_pos hl] at h; cases h
    · rw [if_neg hl] at h
      dsimp only at h
      cases hb : bindDims names (s.drop (s.length - names.length)) m with
      | none => rw [hb] at h; cases h
      | some m' =>
        rw [hb] at h
        simp only [Option.map_eq_some_iff] at h
        obtain ⟨r', h1, rfl⟩ := h
        obtain ⟨h2, h3, h4⟩ := bindInputs_sound h1 (by simpa using hlen)
        obtain ⟨h5, h6⟩ := bindDims_sound hb (by rw [List.length_drop]; omega)
        have h7 := bindInputs_keep h1
        refine ⟨by simp [h2], by simp [h3, List.length_take], ?_⟩
        dsimp only
        rw [List.zipWith_cons_cons, ← h4]
        congr 1
        have : names.map (fun d => (r'.2.2.lookup d).getD 1) = names.map (fun d => (m'.lookup d).getD 1) := by
          apply List.map_congr_left
          intro d hd
          obtain ⟨n, hn⟩ := Option.isSome_iff_exists.1 (h5 d hd)
          rw [h7 d n hn, hn]
        rw [this, ← h6, List.take_append_drop]

theorem bindInputs_complete {σ : List Char → Nat} : ∀ (sig : List (List (List Char))) (loops : List (List Nat))
    (m : List (List Char × Nat)), loops.length = sig.length → (∀ d n, m.lookup d = some n → σ d = n) →
    ∃ m', bindInputs sig (List.zipWith (fun l names => l ++ names.map σ) loops sig) m = some (loops, loops.map List.length, m') ∧
      (∀ d n, m'.lookup d = some n → σ d = n) ∧
      ∀ d, (m'.lookup d).isSome → (∃ names ∈ sig, d ∈ names) ∨ (m.lookup d).isSome
  | [], [], m, _, h => ⟨m, rfl, h, fun d hd => Or.inr hd⟩
  | names :: sig, l :: loops, m, hl, h => by
    rw [List.zipWith_cons_cons, bindInputs, if_neg (by simp)]
    dsimp only
    have hk : (l ++ names.map σ).length - names.length = l.length := by simp
    rw [hk, List.drop_left, List.take_left]
    obtain ⟨m1, h1, h2, h3⟩ := bindDims_complete (σ := σ) names m h
    rw [h1]
    dsimp only
    obtain ⟨m2, h4, h5, h6⟩ := bindInputs_complete (σ := σ) sig loops m1 (by simpa using hl) h2
    refine ⟨m2, by rw [h4]; rfl, h5, fun d hd => ?_⟩
    rcases h6 d hd with ⟨ns, hm, hd⟩ | h7
    · exact Or.inl ⟨ns, List.mem_cons_of_mem _ hm, hd⟩
    · rcases h3 d h7 with h8 | h8
      · exact Or.inl ⟨names, by simp, h8⟩
      · exact Or.inr h8

/-! ### Core sub-arrays -/

theorem gufuncDelta_eq : ∀ (l L : List Nat) (st : List Int), l.length = L.length → st.length = L.length →
    View.gufuncDelta l L st = byteOffset (List.zipWith (fun d i => if d = 1 then 0 else i) L l) st
  | [], [], [], _, _ => rfl
  | i :: l, n :: L, s :: st, h1, h2 => by
    simp only [View.gufuncDelta, List.zipWith_cons_cons, byteOffset]
    rw [gufuncDelta_eq l L st (by simpa using h1) (by simpa using h2)]

theorem gufuncDelta_nil (l : List Nat) : View.gufuncDelta l [] [] = 0 := by cases l <;> rfl

theorem byteOffset_nonneg : ∀ (idx : List Nat) (st : List Int), (∀ s ∈ st, 0 ≤ s) → 0 ≤ byteOffset idx st
  | [], [], _ => by simp [byteOffset]
  | [], _ :: _, _ => by simp [byteOffset]
  | _ :: _, [], _ => by simp [byteOffset]
  | i :: idx, s :: st, h => by
    simp only [byteOffset]
    have := byteOffset_nonneg idx st fun x hx => h x (by simp [hx])
    have h1 : 0 ≤ (i : Int) * s := Int.mul_nonneg (by omega) (h s (by simp))
    omega

theorem zipWith_bc_self : ∀ {C c : List Nat}, InShape C c → List.zipWith (fun d i => if d = 1 then 0 else i) C c = c
  | [], [], _ => rfl
  | n :: C, i :: c, h => by
    obtain ⟨h1, h2⟩ := h
    rw [List.zipWith_cons_cons, zipWith_bc_self h2]
    congr 1
    split <;> omega

/-- The core sub-array of an operand at a loop position is the one NumPy's broadcasting selects,
when the operand has no loop axes or as many as the result, and its loop strides are not negative. -/
theorem subarray_spec {v : View} (hlen : v.strides.length = v.shape.length) {L C loop l : List Nat} (hs : v.shape = L ++ C)
    (hC : C ≠ []) (hL : L = [] ∨ L.length = loop.length) (hpos : ∀ s ∈ v.strides.take L.length, 0 ≤ s)
    (hl : l.length = loop.length) :
    (v.gufuncSubarray l L.length).shape = C ∧ (v.gufuncSubarray l L.length).strides = v.strides.drop L.length ∧
    (v.gufuncSubarray l L.length).item = v.item ∧
    ∀ c, InShape C c → (v.gufuncSubarray l L.length).addr c =
      v.addr (List.zipWith (fun d i => if d = 1 then 0 else i) v.shape
        ((l ++ c).drop ((loop ++ C).length - v.shape.length))) := by
  have hmy : min L.length v.shape.length = L.length := by rw [hs]; simp
  have hdrop : v.shape.drop L.length = C := by rw [hs, List.drop_left]
  have htake : v.shape.take L.length = L := by rw [hs, List.take_left]
  have e : v.gufuncSubarray l L.length = v.viewWith (max 0 (View.gufuncDelta l L (v.strides.take L.length))) C (v.strides.drop L.length) := by
    unfold View.gufuncSubarray
    dsimp only
    rw [hmy, hdrop, htake, if_neg (by simpa using hC)]
  rw [e]
  refine ⟨rfl, rfl, rfl, fun c hc => ?_⟩
  have hst : (v.strides.take L.length).length = L.length := by rw [List.length_take, hlen, hs]; simp
  unfold View.addr View.viewWith
  dsimp only
  have hcat : v.strides = v.strides.take L.length ++ v.strides.drop L.length := (List.take_append_drop _ _).symm
  rcases hL with hL | hL
  · subst hL
    simp only [List.length_nil, List.take_zero, gufuncDelta_nil, List.drop_zero, Int.add_zero, Int.max_self]
    have h1 : v.shape = C := by rw [hs]; rfl
    rw [h1, List.length_append, Nat.add_sub_cancel, ← hl, List.drop_left, zipWith_bc_self hc]
  · have h0 : (loop ++ C).length - v.shape.length = 0 := by rw [hs]; simp [hL]
    rw [h0, List.drop_zero, hs, List.zipWith_append (by omega), zipWith_bc_self hc,
      gufuncDelta_eq _ _ _ (by omega) hst]
    conv_rhs => rw [hcat]
    rw [byteOffset_append _ _ (by simp [hst]; omega)]
    rw [Int.max_eq_right (byteOffset_nonneg _ _ hpos)]
    omega

theorem cStrides_nonneg (item : Nat) : ∀ (s : List Nat), ∀ x ∈ cStrides s item, 0 ≤ x
  | [], x, h => by simp [cStrides, cStridesAux] at h
  | n :: s, x, h => by
    rw [cStrides_cons] at h
    rcases List.mem_cons.1 h with rfl | h
    · omega
    · exact cStrides_nonneg item s x h

theorem resolveDims_eq {sig : GuSig} {shapes : List (List Nat)} {σ : List Char → Nat} {loops : List (List Nat)} {loop : List Nat}
    (h : Resolves sig shapes σ loops loop) :
    resolveDims sig shapes = some ⟨loop, loops.map List.length, sig.outputs.map fun ns => ns.map (outputSize sig σ)⟩ := by
  obtain ⟨h1, rfl, h3⟩ := h
  unfold resolveDims
  rw [if_neg (by simp [h1])]
  obtain ⟨m, e1, e2, e3⟩ := bindInputs_complete (σ := σ) sig.inputs loops [] h1 (by simp)
  have key : ∀ d, (m.lookup d).getD 1 = outputSize sig σ d := by
    intro d
    unfold outputSize
    split
    · next hx =>
      obtain ⟨names, hn, hd⟩ := hx
      have hs := bindInputs_sound e1 (by simp [h1])
      -- the size is recorded
      have hrec : (m.lookup d).isSome := by
        have : ∀ {sig : List (List (List Char))} {shapes : List (List Nat)} {m : List (List Char × Nat)}
            {r : List (List Nat) × List Nat × List (List Char × Nat)}, bindInputs sig shapes m = some r →
            shapes.length = sig.length → ∀ names ∈ sig, ∀ d ∈ names, (r.2.2.lookup d).isSome := by
          intro sig
          induction sig with
          | nil => simp
          | cons a sig ih =>
            intro shapes m r h hl names hn d hd
            cases shapes with
            | nil => simp at hl
            | cons s shapes =>
              rw [bindInputs] at h
              by_cases hlt : s.length < a.length
              · rw [if_pos hlt] at h; cases h
              · rw [if_neg hlt] at h
                dsimp only at h
                cases hb : bindDims a (s.drop (s.length - a.length)) m with
                | none => rw [hb] at h; cases h
                | some m' =>
                  rw [hb] at h
                  simp only [Option.map_eq_some_iff] at h
                  obtain ⟨r', h1, rfl⟩ := h
                  rcases List.mem_cons.1 hn with rfl | hn
                  · obtain ⟨n, hn⟩ := Option.isSome_iff_exists.1 ((bindDims_sound hb (by rw [List.length_drop]; omega)).1 d hd)
                    have := bindInputs_keep h1 d n hn
                    dsimp only
                    rw [this]; rfl
                  · exact ih h1 (by simpa using hl) names hn d hd
        exact this e1 (by simp [h1]) names hn d hd
      obtain ⟨n, hn⟩ := Option.isSome_iff_exists.1 hrec
      rw [hn, e2 d n hn]; rfl
    · next hx =>
      cases hm : m.lookup d with
      | none => rfl
      | some n =>
        rcases e3 d (by rw [hm]; rfl) with h4 | h4
        · exact absurd h4 hx
        · simp at h4
  simp only [Option.bind_eq_bind, e1, Option.bind_some, broadcastMulti_iff.2 h3, key]

theorem resolves_of_some {sig : GuSig} {shapes : List (List Nat)} {d : GuDims} (h : resolveDims sig shapes = some d) :
    ∃ σ loops, Resolves sig shapes σ loops d.loopShape := by
  unfold resolveDims at h
  by_cases hl : shapes.length ≠ sig.inputs.length
  · rw [if_pos hl] at h; cases h
  · rw [if_neg hl] at h
    push Not at hl
    simp only [Option.bind_eq_bind, Option.bind_eq_some_iff] at h
    obtain ⟨r, h1, loop, h2, h3⟩ := h
    obtain ⟨h4, -, h6⟩ := bindInputs_sound h1 hl
    cases h3
    exact ⟨_, r.1, h4, h6, broadcastMulti_iff.1 h2⟩

/-- The stores of the kernels at all loop positions fill the result. -/
theorem gufuncCall_eq {sig : GuSig} {kernel : List (Held α) → View → List (Int × β)} {inputs : List (Held α)}
    {item : Nat} {zero : β} (hitem : 0 < item) {d : GuDims} (hd : resolveDims sig (inputs.map fun h => h.view.shape) = some d)
    {val : List Nat → List Nat → β}
    (hk : ∀ l, InShape d.loopShape l → ∀ w : View,
      w.shape = (if d.outputCoreShapes.getD 0 [] = [] then [1] else d.outputCoreShapes.getD 0 []) →
      (d.outputCoreShapes.getD 0 [] = [] → w.strides = [(item : Int)]) →
      (d.outputCoreShapes.getD 0 [] ≠ [] → w.strides = cStrides (d.outputCoreShapes.getD 0 []) item) →
      kernel (inputCores inputs d.inputLoopNdims l) w
        = (indices (d.outputCoreShapes.getD 0 [])).map fun c => (w.addr c, val l c)) :
    ∃ arr, gufuncCall sig kernel inputs item zero = some arr ∧
      arr.Is { shape := d.loopShape ++ d.outputCoreShapes.getD 0 [],
               get := fun idx => val (idx.take d.loopShape.length) (idx.drop d.loopShape.length) } := by
  unfold gufuncCall
  simp only [Option.bind_eq_bind, hd, Option.bind_some, Option.some.injEq, exists_eq_left']
  refine ⟨rfl, ?_⟩
  unfold GuDims.outputShape
  generalize d.outputCoreShapes.getD 0 [] = cs at hk ⊢
  generalize hloop : d.loopShape = loop at hk ⊢
  rw [odometerAll_eq, List.map_flatMap]
  unfold Nd.toList
  dsimp only
  have hstores : ((indices loop).flatMap fun l => (kernel (inputCores inputs d.inputLoopNdims l)
      ((View.fresh (loop ++ cs) item).gufuncSubarray l loop.length)).map fun s => ((s.1 / (item : Int)).toNat, s.2))
      = (indices (loop ++ cs)).map fun idx => (rank (loop ++ cs) idx, val (idx.take loop.length) (idx.drop loop.length)) := by
    rw [indices_append, List.map_flatMap]
    apply List.flatMap_congr
    intro l hl
    have hl := mem_indices.1 hl
    have hll := hl.length_eq
    have hfresh : ∀ idx, InShape (loop ++ cs) idx → (View.fresh (loop ++ cs) item).addr idx = (rank (loop ++ cs) idx : Int) * item := by
      intro idx hi
      rw [cFlag_addr (View.WF.fresh _ _) rfl hi]
      simp [View.fresh]
    have hstl : (View.fresh (loop ++ cs) item).strides.length = (loop ++ cs).length := cStrides_length _ _
    by_cases hcs : cs = []
    · subst hcs
      have hw : (View.fresh (loop ++ []) item).gufuncSubarray l loop.length
          = (View.fresh (loop ++ []) item).viewWith (byteOffset l (cStrides loop item)) [1] [(item : Int)] := by
        unfold View.gufuncSubarray
        have e1 : (View.fresh (loop ++ []) item).shape = loop := by simp [View.fresh]
        have e2 : (View.fresh (loop ++ []) item).strides = cStrides loop item := by simp [View.fresh]
        dsimp only
        rw [e1, e2, Nat.min_self, List.take_length, List.drop_length, if_pos (by rfl),
          List.take_of_length_le (by rw [cStrides_length]), gufuncDelta_eq _ _ _ hll (cStrides_length _ _), zipWith_bc_self hl,
          Int.max_eq_right (byteOffset_nonneg _ _ (cStrides_nonneg item loop))]
        rfl
      have := hk l hl ((View.fresh (loop ++ []) item).gufuncSubarray l loop.length) (by rw [hw]; simp [View.viewWith])
        (by intro _; rw [hw]; simp [View.viewWith]) (by simp)
      rw [this, List.map_map, List.map_map]
      apply List.map_congr_left
      intro c hc
      have hc := mem_indices.1 hc
      have : c = [] := by cases c with
        | nil => rfl
        | cons => simp [InShape] at hc
      subst this
      simp only [Function.comp_apply, List.append_nil]
      simp only [List.append_nil] at hw
      rw [hw]
      have h1 := hfresh l (by simpa using hl)
      simp only [View.addr, View.fresh, List.append_nil, Int.zero_add] at h1
      simp only [View.addr, View.viewWith, View.fresh, byteOffset, Int.zero_add, Int.add_zero, h1]
      rw [Int.mul_ediv_cancel _ (by omega), Int.toNat_natCast, ← hll, List.take_length, List.drop_length]
    · obtain ⟨hsh, hst, -, haddr⟩ := subarray_spec (v := View.fresh (loop ++ cs) item) hstl (loop := loop) (l := l) rfl hcs
        (Or.inr rfl) (fun s hs => cStrides_nonneg item _ s (List.mem_of_mem_take hs)) hll
      have hst' : ((View.fresh (loop ++ cs) item).gufuncSubarray l loop.length).strides = cStrides cs item := by
        rw [hst]
        have : ∀ a : List Nat, (cStrides (a ++ cs) item).drop a.length = cStrides cs item := by
          intro a
          induction a with
          | nil => rfl
          | cons n a ih => rw [List.cons_append, cStrides_cons, List.length_cons, List.drop_succ_cons, ih]
        exact this loop
      have := hk l hl _ (by rw [hsh, if_neg hcs]) (fun h => absurd h hcs) (fun _ => hst')
      rw [this, List.map_map, List.map_map]
      apply List.map_congr_left
      intro c hc
      have hc := mem_indices.1 hc
      have hin := (inShape_append_iff (b := cs) (j := c) hll).2 ⟨hl, hc⟩
      simp only [Function.comp_apply]
      rw [haddr c hc]
      have e0 : (loop ++ cs).length - (View.fresh (loop ++ cs) item).shape.length = 0 := by simp [View.fresh]
      rw [e0, List.drop_zero]
      have e1 : List.zipWith (fun d i => if d = 1 then 0 else i) (View.fresh (loop ++ cs) item).shape (l ++ c) = l ++ c :=
        zipWith_bc_self hin
      rw [e1, hfresh _ hin, Int.mul_ediv_cancel _ (by omega), Int.toNat_natCast, ← hll, List.take_left, List.drop_left]
  rw [hstores, writes_indices _ _ _ (by rw [List.length_replicate, sizeOf_eq])]

end Rumpy
