import Verif.Lemmas.Datetime
import Verif.Lemmas.Text
import Verif.Lemmas.Float
/-!
# Lemmas: printing and parsing dates
-/

namespace Rumpy
open Spec

/-- The error of rounding an integer to 53 bits. -/
theorem natToF64_err (x : Nat) : 2 ^ 53 * natToF64 x ≤ 2 ^ 53 * x + x ∧ 2 ^ 53 * x ≤ 2 ^ 53 * natToF64 x + x := by
  unfold natToF64
  split
  · omega
  · rename_i h
    have hx0 : x ≠ 0 := by omega
    have hl : 53 ≤ x.log2 := (Nat.le_log2 hx0).2 (by omega)
    obtain ⟨s, hs⟩ : ∃ s, x.log2 - 52 = s + 1 := ⟨x.log2 - 53, by omega⟩
    dsimp only
    rw [hs, Nat.add_sub_cancel]
    have hp : 2 ^ 53 * 2 ^ s ≤ x := by
      rw [← Nat.pow_add]
      have := Nat.log2_self_le hx0
      have e : x.log2 = 53 + s := by omega
      rwa [e] at this
    have hd := Nat.div_add_mod x (2 ^ (s + 1))
    have hm := Nat.mod_lt x (show 0 < 2 ^ (s + 1) from Nat.two_pow_pos _)
    have e2 : 2 ^ (s + 1) = 2 * 2 ^ s := by rw [Nat.pow_succ]; ring
    rw [e2] at hd hm ⊢
    generalize x / (2 * 2 ^ s) = q at *
    generalize x % (2 * 2 ^ s) = r at *
    generalize 2 ^ s = p at *
    split
    · rename_i hc
      have : p ≤ r := by omega
      constructor <;> nlinarith
    · rename_i hc
      have : r ≤ p := by omega
      constructor <;> nlinarith

/-- The error of rounding a rational below one to 53 bits. -/
theorem ratToF64_err {a b m k : Nat} (ha : 0 < a) (hab : a < b) (h : ratToF64 a b = (m, k)) :
    2 * (m * b) ≤ 2 * (a * 2 ^ k) + b ∧ 2 * (a * 2 ^ k) ≤ 2 * (m * b) + b ∧ 2 ^ 52 ≤ 2 ^ k := by
  unfold ratToF64 at h
  rw [if_neg (by omega)] at h
  dsimp only at h
  have hlog : a.log2 ≤ b.log2 := by
    rw [Nat.le_log2 (by omega)]
    exact (Nat.log2_self_le (by omega)).trans (by omega)
  generalize hk' : (if 2 ^ 53 ≤ a * 2 ^ (53 + b.log2 - a.log2) / b then 53 + b.log2 - a.log2 - 1
    else 53 + b.log2 - a.log2) = k' at h
  have hk52 : 52 ≤ k' := by rw [← hk']; split <;> omega
  simp only [Prod.mk.injEq] at h
  obtain ⟨h1, rfl⟩ := h
  refine ⟨?_, ?_, Nat.pow_le_pow_right (by decide) hk52⟩
  all_goals
    have hd := Nat.div_add_mod (a * 2 ^ k') b
    have hm := Nat.mod_lt (a * 2 ^ k') (show 0 < b by omega)
    generalize a * 2 ^ k' / b = q at *
    generalize a * 2 ^ k' % b = r at *
    subst h1
    split
    · rename_i hc
      have : b ≤ 2 * r := by omega
      nlinarith
    · rename_i hc
      have : 2 * r ≤ b := by omega
      nlinarith

theorem showNatPad_length {w n : Nat} (hw : 0 < w) (h : n < 10 ^ w) : (showNatPad w n).length = w := by
  have := (Nat.length_toDigits_le_iff (b := 10) (by decide) hw).2 h
  unfold showNatPad showNat
  rw [List.length_append, List.length_replicate]
  omega

/-- Digits of a fraction through a double: at most one tick is lost. -/
theorem fracTicks_bounds {p n : Nat} (hp : 0 < p) (hp9 : p ≤ 9) (h : n < 10 ^ p) :
    (n : Int) - 1 ≤ fracTicks p (showNatPad p n) ∧ fracTicks p (showNatPad p n) ≤ n := by
  unfold fracTicks
  rw [parseDigits_showNatPad, showNatPad_length hp h]
  dsimp only
  have hb9 : 10 ^ p ≤ 1000000000 := by
    calc 10 ^ p ≤ 10 ^ 9 := Nat.pow_le_pow_right (by decide) hp9
      _ = 1000000000 := by norm_num
  generalize 10 ^ p = b at *
  by_cases hn : n = 0
  · subst hn
    simp [ratToF64, natToF64]
  · cases hr : ratToF64 n b with
    | mk m k =>
      obtain ⟨e1, e2, e3⟩ := ratToF64_err (by omega) h hr
      obtain ⟨f1, f2⟩ := natToF64_err (m * b)
      dsimp only
      generalize natToF64 (m * b) = N at *
      generalize m * b = P at *
      generalize 2 ^ k = T at *
      have hnT : n * T ≤ 1000000000 * T := Nat.mul_le_mul_right _ (by omega)
      have hpos : 0 < T := by omega
      have h1 : N < (n + 1) * T := by
        have : (n + 1) * T = n * T + T := by ring
        omega
      have h2 : (n - 1) * T ≤ N := by
        have : (n - 1) * T + T = n * T := by
          obtain ⟨j, rfl⟩ : ∃ j, n = j + 1 := ⟨n - 1, by omega⟩
          rw [Nat.add_sub_cancel]; ring
        omega
      have h3 : N / T < n + 1 := (Nat.div_lt_iff_lt_mul hpos).2 h1
      have h4 : n - 1 ≤ N / T := (Nat.le_div_iff_mul_le hpos).2 h2
      omega

theorem fracTicks_ms {n : Nat} (h : n < 1000) : fracTicks 3 (showNatPad 3 n) = n := by
  unfold fracTicks
  rw [parseDigits_showNatPad, showNatPad_length (by decide) h]
  dsimp only
  have key : ∀ n < 1000, natToF64 ((ratToF64 n (10 ^ 3)).1 * 10 ^ 3) / 2 ^ (ratToF64 n (10 ^ 3)).2 = n := by
    decide +kernel
  rw [key n h]

theorem splitOn_none {c : Char} {a : List Char} (h : c ∉ a) : splitOn c a = [a] := by
  induction a with
  | nil => rfl
  | cons x xs ih =>
    simp only [List.mem_cons, not_or] at h
    unfold splitOn
    rw [if_neg (Ne.symm h.1), ih h.2]

theorem splitOn_append {c : Char} {a b : List Char} (h : c ∉ a) : splitOn c (a ++ c :: b) = a :: splitOn c b := by
  induction a with
  | nil => simp [splitOn]
  | cons x xs ih =>
    simp only [List.mem_cons, not_or] at h
    rw [List.cons_append]
    conv_lhs => unfold splitOn
    rw [if_neg (Ne.symm h.1), ih h.2]

theorem splitDot_append {a b : List Char} (h : '.' ∉ a) : splitDot (a ++ '.' :: b) = some (a, b) := by
  induction a with
  | nil => simp [splitDot]
  | cons x xs ih =>
    simp only [List.mem_cons, not_or] at h
    rw [List.cons_append]
    unfold splitDot
    rw [if_neg (Ne.symm h.1), ih h.2]
    rfl

theorem splitDot_none {a : List Char} (h : '.' ∉ a) : splitDot a = none := by
  induction a with
  | nil => rfl
  | cons x xs ih =>
    simp only [List.mem_cons, not_or] at h
    unfold splitDot
    rw [if_neg (Ne.symm h.1), ih h.2]
    rfl

/-- Numbers that are not negative are printed with digits only. -/
theorem showIntPad_nonneg {w : Nat} {z : Int} (h : 0 ≤ z) : showIntPad w z = showNatPad w z.toNat := by
  unfold showIntPad
  rw [if_neg (by omega)]
  congr 1
  omega

theorem notMem_showIntPad {w : Nat} {z : Int} (h : 0 ≤ z) {c : Char} (hc : c.isDigit = false) : c ∉ showIntPad w z := by
  rw [showIntPad_nonneg h]
  intro hm
  rw [showNatPad_digits w _ c hm] at hc
  cases hc

theorem parse_showIntPad {w : Nat} {z : Int} (h : 0 ≤ z) (h2 : z < 2 ^ 63) : parseI64 (showIntPad w z) = some z :=
  parseI64_showIntPad w z (by omega) h2

/-- A printed date with a non-negative year: the text and its three parts. -/
theorem dateString_split {n : Int} {d : Date} (hd : daysToYmd n = d) (hy : 0 ≤ d.year) (hm : 0 ≤ d.month) (hdd : 0 ≤ d.day) :
    splitOn '-' (dateString n) = [showIntPad 4 d.year, showIntPad 2 d.month, showIntPad 2 d.day] ∧
      'T' ∉ dateString n := by
  unfold dateString
  rw [hd]
  dsimp only
  constructor
  · rw [List.append_assoc, List.cons_append, splitOn_append (c := '-') (notMem_showIntPad hy (by decide)),
      splitOn_append (notMem_showIntPad hm (by decide)), splitOn_none (notMem_showIntPad hdd (by decide))]
  · simp only [List.mem_append, List.mem_cons, not_or]
    exact ⟨⟨notMem_showIntPad hy (by decide), by decide, notMem_showIntPad hm (by decide)⟩, by decide,
      notMem_showIntPad hdd (by decide)⟩

theorem not_nat_text {w : Nat} {z : Int} (h : 0 ≤ z) (l : List Char) :
    ¬ (showIntPad w z ++ l = "NaT".toList ∨ showIntPad w z ++ l = "nat".toList) := by
  rw [showIntPad_nonneg h]
  have hd := showNatPad_digits w z.toNat
  have hn := showNatPad_ne_nil w z.toNat
  cases hs : showNatPad w z.toNat with
  | nil => exact absurd hs hn
  | cons c cs =>
    have hc := hd c (by rw [hs]; simp)
    rintro (h | h)
    · have : c = 'N' := by
        have := congrArg List.head? h
        simpa using this
      subst this
      exact absurd hc (by decide)
    · have : c = 'n' := by
        have := congrArg List.head? h
        simpa using this
      subst this
      exact absurd hc (by decide)

/-- Parsing a date followed by an optional time. -/
theorem parse_date {n : Int} {d : Date} (hd : daysToYmd n = d) (hD : DayNumber n d) (hy : 0 ≤ d.year)
    (h1 : -2 ^ 63 ≤ n) (h2 : n < 2 ^ 63) (u : TimeUnit) :
    (∀ t : List Char, 'T' ∉ t → parseDatetime (dateString n ++ 'T' :: t) u =
      (let x := parseTime t
       let secs := n * 86400 + x.1 * 3600 + x.2.1 * 60 + x.2.2.1
       match u with
       | .Y => wrap64 (d.year - 1970)
       | .M => wrap64 ((d.year - 1970) * 12 + (d.month - 1))
       | .W => n.tdiv 7
       | .D => n
       | .h => wrap64 (n * 24 + x.1)
       | .m => wrap64 (n * 24 * 60 + x.1 * 60 + x.2.1)
       | .s => wrap64 secs
       | .ms => wrap64 (secs * 1000 + fracTicks 3 x.2.2.2)
       | .us => wrap64 (secs * 1000000 + fracTicks 6 x.2.2.2)
       | .ns => wrap64 (secs * 1000000000 + fracTicks 9 x.2.2.2))) ∧
    (u = .D → parseDatetime (dateString n) u = n) ∧ (u = .W → parseDatetime (dateString n) u = n.tdiv 7) := by
  obtain ⟨hv, _⟩ := dayNumber_iff.1 hD
  have hyb := dayNumber_year_bounds hD h1 h2
  obtain ⟨v1, v2, v3, v4⟩ := hv
  have v5 : d.day ≤ 31 := by
    refine v4.trans ?_
    unfold daysInMonth
    repeat' split
    all_goals omega
  obtain ⟨s1, s2⟩ := dateString_split hd hy (by omega) (by omega)
  have p1 := parse_showIntPad (w := 4) hy (by omega)
  have p2 := parse_showIntPad (w := 2) (z := d.month) (by omega) (by omega)
  have p3 := parse_showIntPad (w := 2) (z := d.day) (by omega) (by omega)
  have hymd : ymdToDays d.year d.month d.day = n := ymdToDays_dayNumber hD h1 h2
  have hnn : ∀ l, ¬ (dateString n ++ l = "NaT".toList ∨ dateString n ++ l = "nat".toList) := by
    intro l
    unfold dateString
    rw [hd]
    dsimp only
    rw [List.append_assoc, List.append_assoc]
    exact not_nat_text hy _
  refine ⟨?_, ?_, ?_⟩
  · intro t ht
    have e : splitOn 'T' (dateString n ++ 'T' :: t) = [dateString n, t] := by
      rw [splitOn_append s2, splitOn_none ht]
    unfold parseDatetime
    rw [if_neg (hnn _), e]
    simp only [List.headD_cons, s1, List.getElem?_cons_zero, List.getElem?_cons_succ, Option.bind_some, p1, p2, p3,
      Option.getD_some, hymd]
    rfl
  all_goals
    rintro rfl
    have e : splitOn 'T' (dateString n) = [dateString n] := splitOn_none s2
    unfold parseDatetime
    have := hnn []
    rw [List.append_nil] at this
    rw [if_neg this, e]
    simp only [List.headD_cons, s1, List.getElem?_cons_zero, List.getElem?_cons_succ, Option.bind_some, p1, p2, p3,
      Option.getD_some, hymd]

theorem parseTime_h {h : Int} (h0 : 0 ≤ h) (h1 : h < 24) : parseTime (showIntPad 2 h) = (h, 0, 0, []) := by
  unfold parseTime
  rw [splitOn_none (notMem_showIntPad h0 (by decide))]
  simp [parse_showIntPad h0 (by omega)]

theorem parseTime_m {h m : Int} (h0 : 0 ≤ h) (h1 : h < 24) (m0 : 0 ≤ m) (m1 : m < 60) :
    parseTime (showIntPad 2 h ++ ':' :: showIntPad 2 m) = (h, m, 0, []) := by
  unfold parseTime
  rw [splitOn_append (notMem_showIntPad h0 (by decide)), splitOn_none (notMem_showIntPad m0 (by decide))]
  simp [parse_showIntPad h0 (by omega), parse_showIntPad m0 (by omega)]

theorem parseTime_s {h m s : Int} (h0 : 0 ≤ h) (h1 : h < 24) (m0 : 0 ≤ m) (m1 : m < 60) (s0 : 0 ≤ s) (s1 : s < 60) :
    parseTime (showIntPad 2 h ++ ':' :: (showIntPad 2 m ++ ':' :: showIntPad 2 s)) = (h, m, s, []) := by
  unfold parseTime
  rw [splitOn_append (notMem_showIntPad h0 (by decide)), splitOn_append (notMem_showIntPad m0 (by decide)),
    splitOn_none (notMem_showIntPad s0 (by decide))]
  simp [parse_showIntPad h0 (by omega), parse_showIntPad m0 (by omega), parse_showIntPad s0 (by omega),
    splitDot_none (notMem_showIntPad s0 (by decide))]

theorem parseTime_f {h m s f : Int} {w : Nat} (h0 : 0 ≤ h) (h1 : h < 24) (m0 : 0 ≤ m) (m1 : m < 60) (s0 : 0 ≤ s)
    (s1 : s < 60) (f0 : 0 ≤ f) :
    parseTime (showIntPad 2 h ++ ':' :: (showIntPad 2 m ++ ':' :: (showIntPad 2 s ++ '.' :: showIntPad w f))) =
      (h, m, s, showNatPad w f.toNat) := by
  unfold parseTime
  have hs : ':' ∉ showIntPad 2 s ++ '.' :: showIntPad w f := by
    simp only [List.mem_append, List.mem_cons, not_or]
    exact ⟨notMem_showIntPad s0 (by decide), by decide, notMem_showIntPad f0 (by decide)⟩
  rw [splitOn_append (notMem_showIntPad h0 (by decide)), splitOn_append (notMem_showIntPad m0 (by decide)),
    splitOn_none hs]
  simp [parse_showIntPad h0 (by omega), parse_showIntPad m0 (by omega), parse_showIntPad s0 (by omega),
    splitDot_append (notMem_showIntPad s0 (by decide)), showIntPad_nonneg f0]

/-- Text of a clock time contains no `T`. -/
theorem time_noT {h m s f : Int} {w : Nat} (h0 : 0 ≤ h) (m0 : 0 ≤ m) (s0 : 0 ≤ s) (f0 : 0 ≤ f) :
    'T' ∉ showIntPad 2 h ∧ 'T' ∉ showIntPad 2 h ++ ':' :: showIntPad 2 m ∧
      'T' ∉ showIntPad 2 h ++ ':' :: (showIntPad 2 m ++ ':' :: showIntPad 2 s) ∧
      'T' ∉ showIntPad 2 h ++ ':' :: (showIntPad 2 m ++ ':' :: (showIntPad 2 s ++ '.' :: showIntPad w f)) := by
  have hh := notMem_showIntPad (w := 2) h0 (c := 'T') (by decide)
  have hm := notMem_showIntPad (w := 2) m0 (c := 'T') (by decide)
  have hs := notMem_showIntPad (w := 2) s0 (c := 'T') (by decide)
  have hf := notMem_showIntPad (w := w) f0 (c := 'T') (by decide)
  have c1 : ¬ 'T' = ':' := by decide
  have c2 : ¬ 'T' = '.' := by decide
  refine ⟨hh, ?_, ?_, ?_⟩ <;> simp only [List.mem_append, List.mem_cons, not_or] <;> simp [*]

/-- Printing and parsing, for a value whose day number and year are known. -/
theorem text_fixed {u : TimeUnit} {v a : Int} (ha : nanos u = some a) (hv1 : -2 ^ 63 < v) (hv2 : v < 2 ^ 63)
    (hday : v * a / 86400000000000 + 719468 < 2 ^ 63) (hday2 : -2 ^ 63 ≤ v * a / 86400000000000)
    (hy : 0 ≤ (daysToYmd (v * a / 86400000000000)).year) :
    (u ≠ .us → u ≠ .ns → parseDatetime (formatDatetime v u) u = v) ∧
      v - 1 ≤ parseDatetime (formatDatetime v u) u ∧ parseDatetime (formatDatetime v u) u ≤ v := by
  have hD : DayNumber _ (daysToYmd (v * a / 86400000000000)) := daysToYmd_spec hday2 hday
  have hP := parse_date rfl hD hy hday2 (by omega)
  generalize hn : v * a / 86400000000000 = n at *
  clear hD hy
  have one : parseDatetime (formatDatetime v u) u = v →
      (u ≠ .us → u ≠ .ns → parseDatetime (formatDatetime v u) u = v) ∧
      v - 1 ≤ parseDatetime (formatDatetime v u) u ∧ parseDatetime (formatDatetime v u) u ≤ v :=
    fun h => ⟨fun _ _ => h, by omega, by omega⟩
  cases u <;> simp only [nanos, reduceCtorEq, Option.some.injEq] at ha <;> subst ha
  case W =>
    apply one
    have e : wrap64 (v * 7) = n := by rw [wrap64_eq] <;> omega
    simp only [formatDatetime, e]
    rw [(hP .W).2.2 rfl]
    have : n = v * 7 := by omega
    rw [this, Int.mul_tdiv_cancel _ (by decide)]
  case D =>
    apply one
    have e : v = n := by omega
    subst e
    simp only [formatDatetime]
    exact (hP .D).2.1 rfl
  case h =>
    apply one
    have e : v / 24 = n := by omega
    simp only [formatDatetime, e]
    rw [(hP .h).1 _ (time_noT (m := 0) (s := 0) (f := 0) (w := 0) (by omega) (by omega) (by omega) (by omega)).1,
      parseTime_h (by omega) (by omega)]
    simp only
    rw [wrap64_eq] <;> omega
  case m =>
    apply one
    have e : v / (24 * 60) = n := by omega
    have r0 : 0 ≤ v % (24 * 60) := by omega
    have r1 : v % (24 * 60) < 1440 := by omega
    have r2 : v = n * 1440 + v % (24 * 60) := by omega
    simp only [formatDatetime, e]
    generalize v % (24 * 60) = r at *
    rw [tdiv_pos_const r0, Int.tmod_eq_emod_of_nonneg r0, List.append_assoc, List.cons_append]
    rw [(hP .m).1 _ (time_noT (s := 0) (f := 0) (w := 0) (by omega) (by omega) (by omega) (by omega)).2.1,
      parseTime_m (by omega) (by omega) (by omega) (by omega)]
    simp only
    rw [wrap64_eq] <;> omega
  case s =>
    apply one
    have e : v / (24 * 60 * 60) = n := by omega
    have r0 : 0 ≤ v % (24 * 60 * 60) := by omega
    have r1 : v % (24 * 60 * 60) < 86400 := by omega
    have r2 : v = n * 86400 + v % (24 * 60 * 60) := by omega
    simp only [formatDatetime, e]
    generalize v % (24 * 60 * 60) = r at *
    have r3 : 0 ≤ r % 3600 := by omega
    rw [tdiv_pos_const r0, Int.tmod_eq_emod_of_nonneg r0, Int.tmod_eq_emod_of_nonneg r0, tdiv_pos_const r3]
    simp only [List.append_assoc, List.cons_append]
    rw [(hP .s).1 _ (time_noT (f := 0) (w := 0) (by omega) (by omega) (by omega) (by omega)).2.2.1,
      parseTime_s (by omega) (by omega) (by omega) (by omega) (by omega) (by omega)]
    simp only
    rw [wrap64_eq] <;> omega
  case ms =>
    apply one
    have e : v / (24 * 60 * 60 * 1000) = n := by omega
    have r0 : 0 ≤ v % (24 * 60 * 60 * 1000) := by omega
    have r1 : v % (24 * 60 * 60 * 1000) < 86400000 := by omega
    have r2 : v = n * 86400000 + v % (24 * 60 * 60 * 1000) := by omega
    simp only [formatDatetime, e]
    generalize v % (24 * 60 * 60 * 1000) = r at *
    have r3 : 0 ≤ r % 3600000 := by omega
    have r4 : 0 ≤ r % 60000 := by omega
    rw [tdiv_pos_const r0, Int.tmod_eq_emod_of_nonneg r0, Int.tmod_eq_emod_of_nonneg r0,
      Int.tmod_eq_emod_of_nonneg r0, tdiv_pos_const r3, tdiv_pos_const r4]
    simp only [List.append_assoc, List.cons_append]
    rw [(hP .ms).1 _ (time_noT (by omega) (by omega) (by omega) (by omega)).2.2.2,
      parseTime_f (by omega) (by omega) (by omega) (by omega) (by omega) (by omega) (by omega)]
    simp only
    rw [fracTicks_ms (by omega), wrap64_eq] <;> omega
  case us =>
    have e : v / (24 * 60 * 60 * 1000000) = n := by omega
    have r0 : 0 ≤ v % (24 * 60 * 60 * 1000000) := by omega
    have r1 : v % (24 * 60 * 60 * 1000000) < 86400000000 := by omega
    have r2 : v = n * 86400000000 + v % (24 * 60 * 60 * 1000000) := by omega
    simp only [formatDatetime, e]
    generalize v % (24 * 60 * 60 * 1000000) = r at *
    have r3 : 0 ≤ r % 3600000000 := by omega
    have r4 : 0 ≤ r % 60000000 := by omega
    rw [tdiv_pos_const r0, Int.tmod_eq_emod_of_nonneg r0, Int.tmod_eq_emod_of_nonneg r0,
      Int.tmod_eq_emod_of_nonneg r0, tdiv_pos_const r3, tdiv_pos_const r4]
    simp only [List.append_assoc, List.cons_append]
    rw [(hP .us).1 _ (time_noT (by omega) (by omega) (by omega) (by omega)).2.2.2,
      parseTime_f (by omega) (by omega) (by omega) (by omega) (by omega) (by omega) (by omega)]
    simp only
    obtain ⟨f1, f2⟩ := fracTicks_bounds (p := 6) (n := (r % 1000000).toNat) (by decide) (by decide) (by norm_num; omega)
    generalize fracTicks 6 _ = F at *
    clear hP one
    refine ⟨fun h => absurd rfl h, ?_⟩
    rw [wrap64_eq] <;> omega
  case ns =>
    have e : v / (24 * 60 * 60 * 1000000000) = n := by omega
    have r0 : 0 ≤ v % (24 * 60 * 60 * 1000000000) := by omega
    have r1 : v % (24 * 60 * 60 * 1000000000) < 86400000000000 := by omega
    have r2 : v = n * 86400000000000 + v % (24 * 60 * 60 * 1000000000) := by omega
    simp only [formatDatetime, e]
    generalize v % (24 * 60 * 60 * 1000000000) = r at *
    have r3 : 0 ≤ r % 3600000000000 := by omega
    have r4 : 0 ≤ r % 60000000000 := by omega
    rw [tdiv_pos_const r0, Int.tmod_eq_emod_of_nonneg r0, Int.tmod_eq_emod_of_nonneg r0,
      Int.tmod_eq_emod_of_nonneg r0, tdiv_pos_const r3, tdiv_pos_const r4]
    simp only [List.append_assoc, List.cons_append]
    rw [(hP .ns).1 _ (time_noT (by omega) (by omega) (by omega) (by omega)).2.2.2,
      parseTime_f (by omega) (by omega) (by omega) (by omega) (by omega) (by omega) (by omega)]
    simp only
    obtain ⟨f1, f2⟩ := fracTicks_bounds (p := 9) (n := (r % 1000000000).toNat) (by decide) (by decide) (by norm_num; omega)
    generalize fracTicks 9 _ = F at *
    clear hP one
    refine ⟨fun _ h => absurd rfl h, ?_⟩
    rw [wrap64_eq] <;> omega


end Rumpy
