import Verif.Model.ShapeArg
import Verif.Props.Reshape
import Verif.Props.Stack
/-!
# C115: the ways to write a shape
-/

namespace Props
open Rumpy Spec

variable {α : Type}

/-! ### What an argument writes -/

theorem argI64_iff {a : PyArg} {d : Int} : argI64 a = some d ↔ a = .int d ∧ FitsWord d := by
  cases a with
  | int n =>
    show (if -2 ^ 63 ≤ n ∧ n < 2 ^ 63 then some n else none) = some d ↔ _ ∧ (-2 ^ 63 ≤ d ∧ d < 2 ^ 63)
    by_cases h : -2 ^ 63 ≤ n ∧ n < 2 ^ 63
    · rw [if_pos h]
      constructor
      · intro e; cases e; exact ⟨rfl, h⟩
      · rintro ⟨e, _⟩; cases e; rfl
    · rw [if_neg h]
      constructor
      · intro e; cases e
      · rintro ⟨e, h'⟩; cases e; exact absurd h' h
  | tuple l => simp [argI64]
  | list l => simp [argI64]
  | other => simp [argI64]

theorem argI64_map_iff {l : List PyArg} {dims : List Int} :
    l.mapM argI64 = some dims ↔ l = dims.map .int ∧ ∀ d ∈ dims, FitsWord d := by
  induction l generalizing dims with
  | nil =>
    rw [List.mapM_nil]
    constructor
    · intro e; cases e; exact ⟨rfl, by simp⟩
    · rintro ⟨e, _⟩
      cases dims with
      | nil => rfl
      | cons d ds => cases e
  | cons a l ih =>
    rw [List.mapM_cons]
    constructor
    · intro e
      obtain ⟨d, h1, e⟩ := Option.bind_eq_some_iff.1 e
      obtain ⟨ds, h2, e⟩ := Option.bind_eq_some_iff.1 e
      cases e
      obtain ⟨rfl, h3⟩ := argI64_iff.1 h1
      obtain ⟨rfl, h4⟩ := ih.1 h2
      exact ⟨rfl, by simpa using ⟨h3, h4⟩⟩
    · rintro ⟨e, h⟩
      cases dims with
      | nil => cases e
      | cons d ds =>
        rw [List.map_cons, List.cons.injEq] at e
        rw [argI64_iff.2 ⟨e.1, h d (by simp)⟩, ih.2 ⟨e.2, fun x hx => h x (by simp [hx])⟩]
        rfl

/-- C115.  One argument is read as the lengths it writes; it is refused if it writes none or one that does not fit 64 bits. -/
theorem C115_one_iff (a : PyArg) (dims : List Int) : parseNewShape a = some dims ↔ a.Writes dims ∧ ∀ d ∈ dims, FitsWord d := by
  unfold parseNewShape
  cases a with
  | int n =>
    constructor
    · intro h
      cases hn : argI64 (.int n) with
      | none => rw [hn] at h; cases h
      | some d =>
        rw [hn] at h
        cases h
        obtain ⟨e, h2⟩ := argI64_iff.1 hn
        cases e
        exact ⟨Or.inl ⟨n, rfl, rfl⟩, by simpa using h2⟩
    · rintro ⟨h | h, hf⟩
      · obtain ⟨d, e, rfl⟩ := h
        cases e
        rw [argI64_iff.2 ⟨rfl, hf n (by simp)⟩]
      · rcases h with h | h <;> cases h
  | tuple l =>
    show l.mapM argI64 = some dims ↔ _
    rw [argI64_map_iff]
    constructor
    · rintro ⟨rfl, h⟩; exact ⟨Or.inr (Or.inl rfl), h⟩
    · rintro ⟨h | h, hf⟩
      · obtain ⟨d, e, -⟩ := h; cases e
      · rcases h with h | h <;> cases h
        exact ⟨rfl, hf⟩
  | list l =>
    show l.mapM argI64 = some dims ↔ _
    rw [argI64_map_iff]
    constructor
    · rintro ⟨rfl, h⟩; exact ⟨Or.inr (Or.inr rfl), h⟩
    · rintro ⟨h | h, hf⟩
      · obtain ⟨d, e, -⟩ := h; cases e
      · rcases h with h | h <;> cases h
        exact ⟨rfl, hf⟩
  | other =>
    constructor
    · intro h; cases h
    · rintro ⟨h | h, _⟩
      · obtain ⟨d, e, -⟩ := h; cases e
      · rcases h with h | h <;> cases h

example : parseNewShape (.list [.int 2, .int (-1)]) = some [2, -1] := (C115_one_iff _ _).2 ⟨Or.inr (Or.inr rfl), by unfold FitsWord; decide⟩

/-- C115.  The arguments of the method `reshape` are read as the lengths they write. -/
theorem C115_args_iff (args : List PyArg) (dims : List Int) :
    parseReshapeArgs args = some dims ↔ ArgsWrite args dims ∧ ∀ d ∈ dims, FitsWord d := by
  match args with
  | [] =>
    constructor
    · intro h; cases h
    · rintro ⟨h | h, _⟩
      · obtain ⟨a, e, -⟩ := h; cases e
      · have := congrArg List.length h.2
        simp at this
        omega
  | [a] =>
    show parseNewShape a = some dims ↔ _
    rw [C115_one_iff]
    constructor
    · rintro ⟨h, hf⟩; exact ⟨Or.inl ⟨a, rfl, h⟩, hf⟩
    · rintro ⟨h | h, hf⟩
      · obtain ⟨b, e, hb⟩ := h; cases e; exact ⟨hb, hf⟩
      · have := congrArg List.length h.2
        simp at this
        omega
  | a :: b :: rest =>
    show (a :: b :: rest).mapM argI64 = some dims ↔ _
    rw [argI64_map_iff]
    constructor
    · rintro ⟨e, hf⟩
      refine ⟨Or.inr ⟨?_, e⟩, hf⟩
      have := congrArg List.length e
      simp at this
      omega
    · rintro ⟨h | h, hf⟩
      · obtain ⟨b, e, -⟩ := h; cases e
      · exact ⟨h.2, hf⟩

example : parseReshapeArgs [.int 2, .int 3] = some [2, 3] ∧ parseReshapeArgs [.tuple [.int 2, .int 3]] = some [2, 3] :=
  ⟨(C115_args_iff _ _).2 ⟨Or.inr ⟨by decide, rfl⟩, by unfold FitsWord; decide⟩, (C115_args_iff _ _).2 ⟨Or.inl ⟨_, rfl, Or.inr (Or.inl rfl)⟩, by unfold FitsWord; decide⟩⟩

theorem extractUsize_iff {a : PyArg} {n : Nat} : extractUsize a = some n ↔ a = .int n ∧ n < 2 ^ 64 := by
  cases a with
  | int m =>
    show (if 0 ≤ m ∧ m < 2 ^ 64 then some m.toNat else none) = some n ↔ _
    by_cases h : 0 ≤ m ∧ m < 2 ^ 64
    · rw [if_pos h, Option.some.injEq, PyArg.int.injEq]
      omega
    · rw [if_neg h, PyArg.int.injEq]
      constructor
      · intro e; cases e
      · rintro ⟨e, h'⟩; omega
  | tuple l => simp [extractUsize]
  | list l => simp [extractUsize]
  | other => simp [extractUsize]

/-- C115.  The shape of a new array: the lengths that the argument writes, none of them negative. -/
theorem C115_new_iff (a : PyArg) (s : List Nat) :
    parseShapeArg a = some s ↔ a.Writes (s.map fun n : Nat => (n : Int)) ∧ ∀ n ∈ s, n < 2 ^ 64 := by
  have h2 : ∀ {l : List PyArg} {s : List Nat}, l.mapM extractUsize = some s ↔
      l = (s.map fun n : Nat => (n : Int)).map .int ∧ ∀ n ∈ s, n < 2 ^ 64 := by
    intro l
    induction l with
    | nil =>
      intro s
      rw [List.mapM_nil]
      constructor
      · intro e; cases e; exact ⟨rfl, by simp⟩
      · rintro ⟨e, _⟩
        cases s with
        | nil => rfl
        | cons d ds => cases e
    | cons a l ih =>
      intro s
      rw [List.mapM_cons]
      constructor
      · intro e
        obtain ⟨d, g1, e⟩ := Option.bind_eq_some_iff.1 e
        obtain ⟨ds, g2, e⟩ := Option.bind_eq_some_iff.1 e
        cases e
        obtain ⟨rfl, g3⟩ := extractUsize_iff.1 g1
        obtain ⟨rfl, g4⟩ := ih.1 g2
        exact ⟨rfl, List.forall_mem_cons.2 ⟨g3, g4⟩⟩
      · rintro ⟨e, h⟩
        cases s with
        | nil => cases e
        | cons d ds =>
          rw [List.map_cons, List.map_cons, List.cons.injEq] at e
          rw [extractUsize_iff.2 ⟨e.1, h d (by simp)⟩, ih.2 ⟨e.2, fun x hx => h x (by simp [hx])⟩]
          rfl
  unfold parseShapeArg
  cases a with
  | int m =>
    constructor
    · intro h
      cases hn : extractUsize (.int m) with
      | none => rw [hn] at h; cases h
      | some d =>
        rw [hn] at h
        cases h
        obtain ⟨e, g⟩ := extractUsize_iff.1 hn
        cases e
        exact ⟨Or.inl ⟨d, rfl, rfl⟩, List.forall_mem_singleton.2 g⟩
    · rintro ⟨h | h, hf⟩
      · obtain ⟨d, e, e'⟩ := h
        cases e
        obtain ⟨n, rfl, rfl⟩ := List.map_eq_singleton_iff.1 e'
        rw [extractUsize_iff.2 ⟨rfl, hf n (List.mem_singleton.2 rfl)⟩]
      · rcases h with h | h <;> cases h
  | tuple l =>
    show l.mapM extractUsize = some s ↔ _
    rw [h2]
    constructor
    · rintro ⟨rfl, h⟩; exact ⟨Or.inr (Or.inl rfl), h⟩
    · rintro ⟨h | h, hf⟩
      · obtain ⟨d, e, -⟩ := h; cases e
      · rcases h with h | h <;> cases h
        exact ⟨rfl, hf⟩
  | list l =>
    show l.mapM extractUsize = some s ↔ _
    rw [h2]
    constructor
    · rintro ⟨rfl, h⟩; exact ⟨Or.inr (Or.inr rfl), h⟩
    · rintro ⟨h | h, hf⟩
      · obtain ⟨d, e, -⟩ := h; cases e
      · rcases h with h | h <;> cases h
        exact ⟨rfl, hf⟩
  | other =>
    constructor
    · intro h; cases h
    · rintro ⟨h | h, _⟩
      · obtain ⟨d, e, -⟩ := h; cases e
      · rcases h with h | h <;> cases h

example : parseShapeArg (.tuple []) = some [] ∧ parseShapeArg (.list [.int 2, .int 0]) = some [2, 0] :=
  ⟨(C115_new_iff _ _).2 ⟨Or.inr (Or.inl rfl), by simp⟩, (C115_new_iff _ _).2 ⟨Or.inr (Or.inr rfl), by simp⟩⟩

/-! ### The method `reshape` -/

theorem resolveLoop_nats (s : List Nat) (rest : List Int) (i p : Nat) (neg : Option Nat) :
    resolveLoop ((s.map fun n : Nat => (n : Int)) ++ rest) i neg p = resolveLoop rest (i + s.length) neg (p * size s) := by
  induction s generalizing i p with
  | nil => simp [size]
  | cons n s ih =>
    rw [List.map_cons, List.cons_append, resolveLoop, if_neg (by omega), if_neg (by omega), ih, Int.toNat_natCast, size,
      List.length_cons, Nat.mul_assoc]
    congr 1
    omega

theorem toNat_nats (s : List Nat) : (s.map fun n : Nat => (n : Int)).map Int.toNat = s := by
  induction s with
  | nil => rfl
  | cons n s ih => rw [List.map_cons, List.map_cons, ih, Int.toNat_natCast]

theorem zero_mem_of_size {s : List Nat} (h : 0 ∈ s) : size s = 0 := by
  induction s with
  | nil => cases h
  | cons n s ih =>
    rw [size]
    rcases List.mem_cons.1 h with rfl | h
    · rw [Nat.zero_mul]
    · rw [ih h, Nat.mul_zero]

/-- Resolving a shape finds what is meant, or something of another size. -/
theorem resolveReshape_iff (dims : List Int) (n : Nat) (s : List Nat) :
    resolveReshape dims n = some s ∧ size s = n ↔ IsResolved dims n s := by
  constructor
  · rintro ⟨h, hs⟩
    obtain ⟨⟨h1, h2⟩, -⟩ := C08_infer_sound dims n s h
    refine ⟨h1, hs, h2, ?_⟩
    unfold resolveReshape at h
    cases hr : resolveLoop dims 0 none 1 with
    | none => rw [hr] at h; cases h
    | some r =>
      obtain ⟨-, ⟨hno, -⟩ | ⟨-, a, b, rfl, ha, hb, rfl⟩⟩ := resolveLoop_spec dims 0 none 1 r hr
      · exact Or.inl (List.count_eq_zero.2 hno)
      · right
        refine ⟨by rw [List.count_append, List.count_cons, List.count_eq_zero.2 ha, List.count_eq_zero.2 hb]; simp, fun h0 => ?_⟩
        rw [hr] at h
        simp only [Option.bind_eq_bind, Option.bind_some] at h
        split_ifs at h with hp
        apply hp
        rw [List.mem_append, List.mem_cons] at h0
        rcases h0 with h0 | h0 | h0
        · rw [zero_mem_of_size (s := a.map Int.toNat) (List.mem_map.2 ⟨0, h0, rfl⟩)]; simp
        · omega
        · rw [zero_mem_of_size (s := b.map Int.toNat) (List.mem_map.2 ⟨0, h0, rfl⟩)]; simp
  · intro h
    have hge : ∀ d ∈ dims, -1 ≤ d := by
      intro d hd
      obtain ⟨k, hk, rfl⟩ := List.getElem_of_mem hd
      have := h.2.2.1 k hk
      rw [List.getD_eq_getElem _ _ hk] at this
      omega
    have hnn : ∀ l : List Int, -1 ∉ l → (∀ d ∈ l, -1 ≤ d) → ∀ d ∈ l, 0 ≤ d := by
      intro l h1 h2 d hd
      rcases eq_or_lt_of_le (h2 d hd) with e | e
      · exact absurd (e ▸ hd) h1
      · omega
    by_cases hm : (-1 : Int) ∈ dims
    · obtain ⟨x, y, rfl, hx⟩ := List.eq_append_cons_of_mem hm
      have hy : (-1 : Int) ∉ y := by
        rcases h.2.2.2 with h0 | ⟨h0, -⟩
        · exact absurd hm (List.count_eq_zero.1 h0)
        · rw [List.count_append, List.count_cons, List.count_eq_zero.2 hx] at h0
          exact List.count_eq_zero.1 (by simpa using h0)
      obtain ⟨a, rfl⟩ := exists_nats (hnn x hx fun d hd => hge d (by simp [hd]))
      obtain ⟨b, rfl⟩ := exists_nats (hnn y hy fun d hd => hge d (by simp [hd]))
      obtain ⟨d, rfl, h2, h3⟩ := isResolved_one.1 h
      exact ⟨C08_infer_complete a b d n h.2.1 (fun h0 => h3 (by simp [h0])) (fun h0 => h3 (by simp [h0])), h.2.1⟩
    · obtain ⟨t, rfl⟩ := exists_nats (hnn dims hm hge)
      obtain ⟨rfl, h2⟩ := isResolved_nats.1 h
      refine ⟨?_, h2⟩
      unfold resolveReshape
      have e := resolveLoop_nats s [] 0 1 none
      rw [List.append_nil] at e
      rw [e]
      show some ((s.map fun n : Nat => (n : Int)).map Int.toNat) = some s
      rw [toNat_nats]

/-- C115.  The method `reshape` of a C-contiguous array succeeds exactly if its arguments write lengths, at most one of them left open,
that mean a shape of as many elements; that is the shape of the result, and the elements keep their order. -/
theorem C115_method (mem : Int → α) (v : View) (hw : v.WF) (hc : v.cFlag = true) (args : List PyArg) :
    ((∃ w, reshapeMethod v args = some w) ↔
      ∃ dims s, ArgsWrite args dims ∧ (∀ d ∈ dims, FitsWord d) ∧ IsResolved dims (size v.shape) s) ∧
    ∀ w, reshapeMethod v args = some w →
      (∃ dims, ArgsWrite args dims ∧ IsResolved dims (size v.shape) w.shape) ∧ (w.denote mem).toList = (v.denote mem).toList := by
  have key : ∀ w, reshapeMethod v args = some w → ∃ dims, ArgsWrite args dims ∧ (∀ d ∈ dims, FitsWord d) ∧
      IsResolved dims (size v.shape) w.shape ∧ (w.denote mem).toList = (v.denote mem).toList := by
    intro w h
    obtain ⟨dims, h1, h⟩ := Option.bind_eq_some_iff.1 h
    obtain ⟨s, h2, h3⟩ := Option.bind_eq_some_iff.1 h
    obtain ⟨h4, h5⟩ := (C115_args_iff _ _).1 h1
    obtain ⟨h6, h7, h8⟩ := C08_reshape_partial mem v w hw s hc h3
    rw [sizeOf_eq] at h2
    refine ⟨dims, h4, h5, ?_, h8⟩
    rw [h6]
    exact (resolveReshape_iff dims _ s).1 ⟨h2, h7⟩
  refine ⟨⟨fun ⟨w, h⟩ => ?_, fun ⟨dims, s, h1, h2, h3⟩ => ?_⟩, fun w h => ?_⟩
  · obtain ⟨dims, h1, h2, h3, -⟩ := key w h
    exact ⟨dims, _, h1, h2, h3⟩
  · obtain ⟨h4, h5⟩ := (resolveReshape_iff dims _ s).2 h3
    obtain ⟨w, hw'⟩ := Option.isSome_iff_exists.1 ((C08_reshape_succeeds_iff v s).2 ⟨h5.symm, Or.inl hc⟩)
    refine ⟨w, ?_⟩
    unfold reshapeMethod View.pyReshape
    rw [(C115_args_iff _ _).2 ⟨h1, h2⟩, sizeOf_eq]
    show (resolveReshape dims (size v.shape)).bind _ = _
    rw [h4]
    exact hw'
  · obtain ⟨dims, h1, -, h3, h4⟩ := key w h
    exact ⟨⟨dims, h1, h3⟩, h4⟩

example : reshapeMethod (View.fresh [4] 8) [.int 2, .int (-1)] = reshapeMethod (View.fresh [4] 8) [.list [.int 2, .int (-1)]] ∧
    (reshapeMethod (View.fresh [4] 8) [.int 2, .int (-1)]).map (·.shape) = some [2, 2] := by decide

/-- C115.  All ways to write the same lengths give the same result, in every array. -/
theorem C115_same (v : View) {args args' : List PyArg} {dims : List Int} (h : ArgsWrite args dims) (h' : ArgsWrite args' dims) :
    reshapeMethod v args = reshapeMethod v args' := by
  have key : ∀ {x y : List PyArg}, ArgsWrite x dims → ArgsWrite y dims → ∀ ds, parseReshapeArgs x = some ds → parseReshapeArgs y = some ds := by
    intro x y hx hy ds hds
    obtain ⟨h1, h2⟩ := (C115_args_iff _ _).1 hds
    have inj : ∀ {l m : List Int}, l.map PyArg.int = m.map PyArg.int → l = m := by
      intro l m e
      exact List.map_injective_iff.2 (fun a b e => by cases e; rfl) e
    have huniq : ds = dims := by
      rcases hx with ⟨a, rfl, ha⟩ | ⟨hl, rfl⟩ <;> rcases h1 with ⟨b, e, hb⟩ | ⟨hl', e⟩
      · cases e
        rcases ha with ⟨d, rfl, rfl⟩ | ha | ha <;> rcases hb with ⟨d', e1, rfl⟩ | hb | hb
        all_goals first | (cases e1; rfl) | (cases hb; done) | skip
        all_goals first
          | (subst ha; cases e1; done)
          | (rw [ha] at hb; cases hb; done)
          | (rw [ha] at hb; injection hb with hb; exact (inj hb).symm)
      · have := congrArg List.length e; simp at this; omega
      · have := congrArg List.length e; simp at this; omega
      · exact (inj e).symm
    rw [huniq] at h2 ⊢
    exact (C115_args_iff _ _).2 ⟨hy, h2⟩
  have e : parseReshapeArgs args = parseReshapeArgs args' := by
    cases h1 : parseReshapeArgs args with
    | some ds => exact (key h h' ds h1).symm
    | none =>
      cases h2 : parseReshapeArgs args' with
      | none => rfl
      | some ds => rw [key h' h ds h2] at h1; cases h1
  unfold reshapeMethod
  rw [e]

/-! ### The function `reshape` -/

/-- C115 (partial): the function `reshape` and the method give the same shape and the same elements, and refuse the same arguments.
Missing: lengths below `-1` (`C115_function_counterexample`), lengths whose product passes `2 ^ 63` (C91) and arrays that are not
C-contiguous. -/
theorem C115_function_partial (checked : Bool) (mem : Int → α) (v : View) (hw : v.WF) (hc : v.cFlag = true)
    (hsz : size v.shape < 2 ^ 63) {a : PyArg} {dims : List Int} (ha : a.Writes dims) (hf : ∀ d ∈ dims, FitsWord d) (hd : ∀ d ∈ dims, -1 ≤ d)
    (hb : size ((dims.filter (0 < ·)).map Int.toNat) < 2 ^ 63) :
    (reshapeFunction checked v a = .error ↔ reshapeMethod v [a] = none) ∧
    ∀ w, reshapeFunction checked v a = .ok w → ∃ w', reshapeMethod v [a] = some w' ∧ IsResolved dims (size v.shape) w.shape ∧
      IsResolved dims (size v.shape) w'.shape ∧ (w.denote mem).toList = (w'.denote mem).toList := by
  obtain ⟨-, p2, p3⟩ := C92_reshape_partial checked mem v hw hc hsz dims hd hb
  have e : reshapeFunction checked v a = reshapeFn checked v dims := by
    unfold reshapeFunction
    rw [(C115_one_iff a dims).2 ⟨ha, hf⟩]
  have em : reshapeMethod v [a] = v.pyReshape dims := by
    unfold reshapeMethod
    rw [(C115_args_iff [a] dims).2 ⟨Or.inl ⟨a, rfl, ha⟩, hf⟩]
    rfl
  have hsome : ∀ s, IsResolved dims (size v.shape) s → ∃ w', v.pyReshape dims = some w' ∧ w'.shape = s ∧
      (w'.denote mem).toList = (v.denote mem).toList := by
    intro s hs
    obtain ⟨h4, h5⟩ := (resolveReshape_iff dims _ s).2 hs
    obtain ⟨w', hw'⟩ := Option.isSome_iff_exists.1 ((C08_reshape_succeeds_iff v s).2 ⟨h5.symm, Or.inl hc⟩)
    obtain ⟨h6, -, h8⟩ := C08_reshape_partial mem v w' hw s hc hw'
    refine ⟨w', ?_, h6, h8⟩
    unfold View.pyReshape
    rw [sizeOf_eq]
    show (resolveReshape dims (size v.shape)).bind _ = _
    rw [h4]
    exact hw'
  rw [e, em]
  refine ⟨?_, fun w h => ?_⟩
  · rw [p2]
    constructor
    · intro h
      cases hr : v.pyReshape dims with
      | none => rfl
      | some w' =>
        exfalso
        obtain ⟨s, h2, h3⟩ := Option.bind_eq_some_iff.1 hr
        rw [sizeOf_eq] at h2
        obtain ⟨-, h7, -⟩ := C08_reshape_partial mem v w' hw s hc h3
        exact h ⟨s, (resolveReshape_iff dims _ s).1 ⟨h2, h7⟩⟩
    · rintro h ⟨s, hs⟩
      obtain ⟨w', h1, -⟩ := hsome s hs
      rw [h] at h1
      cases h1
  · obtain ⟨h1, h2⟩ := p3 w h
    obtain ⟨w', g1, g2, g3⟩ := hsome _ h1
    exact ⟨w', g1, h1, by rw [g2]; exact h1, by rw [h2, g3]⟩

example : reshapeFunction true (View.fresh [4] 8) (.list [.int 3, .int (-1)]) = .error ↔
    reshapeMethod (View.fresh [4] 8) [.list [.int 3, .int (-1)]] = none :=
  (C115_function_partial true (fun _ => (0 : Nat)) _ (View.WF.fresh _ _) rfl (by decide) (dims := [3, -1]) (Or.inr (Or.inr rfl))
    (by unfold FitsWord; decide) (by decide) (by decide)).1

/-- C115 fails for lengths below `-1`: the method refuses them, the function takes them for huge lengths. -/
theorem C115_function_counterexample : reshapeMethod (View.fresh [6] 8) [.tuple [.int (-2), .int (-3)]] = none ∧
    ∃ w, reshapeFunction false (View.fresh [6] 8) (.tuple [.int (-2), .int (-3)]) = .ok w ∧ w.shape = [2 ^ 64 - 2, 2 ^ 64 - 3] := by
  refine ⟨by decide, _, rfl, by decide +kernel⟩

end Props
