import Verif.Lemmas.SharedRng
/-! # C74: a random generator shared by threads -/

namespace Props
open Spec Rumpy

variable {n : Nat} {σ W β : Type}

/-- C74: at no time are two threads drawing. -/
theorem C74_exclusive (next : σ → W × σ) (prog : Fin n → List (Call W β)) (g : σ) (s : Sys n σ W β)
    (h : Sys.Reach next (Sys.init prog g) s) {t u : Fin n} {c d : Call W β} {x y : Sampler W β}
    (ht : s.phase t = .drawing c x) (hu : s.phase u = .drawing d y) : t = u :=
  (Inv.of_reach h).alone (by rw [hu]; rfl) (by rw [ht]; rfl)

/-- C74: under any schedule, a thread's calls return in the order in which it makes them, and when all is done every
call has returned once. -/
theorem C74_program_order (next : σ → W × σ) (prog : Fin n → List (Call W β)) (g : σ) (s : Sys n σ W β)
    (h : Sys.Reach next (Sys.init prog g) s) (t : Fin n) :
    (s.log.filter fun e => e.1 = t).map (fun e => e.2.1) <+: prog t ∧
      (s.Done → (s.log.filter fun e => e.1 = t).map (fun e => e.2.1) = prog t) := by
  have hI := (Inv.of_reach h).calls t
  constructor
  · rw [← hI, List.append_assoc]
    exact List.prefix_append _ _
  · intro hd
    obtain ⟨h1, h2⟩ := hd t
    rw [h1, h2] at hI
    simpa [Phase.calls] using hI

/-- C74 (partial): under any schedule, the calls give what they would give one after another, in the order in which
they returned, as long as no call has panicked. Missing: what follows a panic. -/
theorem C74_serial_partial (next : σ → W × σ) (prog : Fin n → List (Call W β)) (g : σ) (s : Sys n σ W β)
    (h : Sys.Reach next (Sys.init prog g) s) (hp : s.poisoned = false) :
    s.log.map (fun e => e.2.2) = (serial next (s.log.map fun e => e.2.1.body) g).1 :=
  ((Inv.of_reach h).value hp).symm

/-- C74: when no call can fail the lock is never poisoned. -/
theorem C74_valid (next : σ → W × σ) (prog : Fin n → List (Call W β)) (g : σ) (s : Sys n σ W β)
    (hv : ∀ t, ∀ c ∈ prog t, NoFail c.body) (h : Sys.Reach next (Sys.init prog g) s) : s.poisoned = false := by
  suffices H : s.poisoned = false ∧ ∀ t c d, s.phase t = .drawing c d → NoFail d from H.1
  induction h with
  | refl => exact ⟨rfl, fun t c d hd => by simp [Sys.init] at hd⟩
  | @step t s s' hr hs ih =>
    obtain ⟨ih1, ih2⟩ := ih
    have hI := Inv.of_reach hr
    have hbody : ∀ c, (s.phase t).calls = [c] → NoFail c.body := by
      intro c hc
      apply hv t
      rw [← hI.calls t, hc]
      simp
    cases hs with
    | enter c cs hp ht hg =>
      refine ⟨ih1, fun u c' d hd => ?_⟩
      by_cases hu : u = t
      · subst hu; simp at hd
      · exact ih2 u c' d ((upd_ne hu).symm.trans hd)
    | lock c hp hl hn =>
      refine ⟨ih1, fun u c' d hd => ?_⟩
      by_cases hu : u = t
      · subst hu; simp at hd
      · exact ih2 u c' d ((upd_ne hu).symm.trans hd)
    | refused c hp hl hn =>
      refine ⟨ih1, fun u c' d hd => ?_⟩
      by_cases hu : u = t
      · subst hu; simp at hd
      · exact ih2 u c' d ((upd_ne hu).symm.trans hd)
    | leave c hp hy =>
      refine ⟨ih1, fun u c' d hd => ?_⟩
      by_cases hu : u = t
      · subst hu; simp at hd
      · exact ih2 u c' d ((upd_ne hu).symm.trans hd)
    | back c hp hg =>
      refine ⟨ih1, fun u c' d hd => ?_⟩
      by_cases hu : u = t
      · subst hu
        replace hd := upd_eq.symm.trans hd
        cases hd
        exact hbody c (by rw [hp]; rfl)
      · exact ih2 u c' d ((upd_ne hu).symm.trans hd)
    | start c hp =>
      refine ⟨ih1, fun u c' d hd => ?_⟩
      by_cases hu : u = t
      · subst hu
        replace hd := upd_eq.symm.trans hd
        cases hd
        exact hbody c (by rw [hp]; rfl)
      · exact ih2 u c' d ((upd_ne hu).symm.trans hd)
    | draw c k hp =>
      refine ⟨ih1, fun u c' d hd => ?_⟩
      by_cases hu : u = t
      · subst hu
        replace hd := upd_eq.symm.trans hd
        cases hd
        exact ih2 u c _ hp _
      · exact ih2 u c' d ((upd_ne hu).symm.trans hd)
    | finish c b hp =>
      refine ⟨ih1, fun u c' d hd => ?_⟩
      by_cases hu : u = t
      · subst hu; simp at hd
      · exact ih2 u c' d ((upd_ne hu).symm.trans hd)
    | panic c hp => exact absurd (ih2 t c _ hp) (by simp [NoFail])

theorem serial_words (next : σ → W × σ) : ∀ (l : List (Sampler W (List W))) (g : σ), (∀ b ∈ l, ∃ k, b = words k []) →
    ∃ rs : List (List W), (serial next l g).1 = rs.map some ∧ rs.flatten = streamFrom next rs.flatten.length g
  | [], g, _ => ⟨[], rfl, rfl⟩
  | b :: l, g, h => by
    obtain ⟨k, rfl⟩ := h b List.mem_cons_self
    obtain ⟨rs, h1, h2⟩ := serial_words next l ((words k []).run next g).2 fun c hc => h c (List.mem_cons_of_mem _ hc)
    have hlen : ∀ (m : Nat) (g : σ), (streamFrom next m g).length = m := by
      intro m
      induction m with
      | zero => intro g; rfl
      | succ m ih => intro g; simp [streamFrom, ih]
    refine ⟨streamFrom next k g :: rs, ?_, ?_⟩
    · show ((words k []).run next g).1 :: _ = _
      rw [words_run, h1]
      simp
    · rw [List.flatten_cons, List.length_append, hlen, ← streamFrom_add next k rs.flatten.length g [], ← h2]

/-- C74: no number is handed out twice and none is left out: when every call asks for some number of words, what the
threads got, in the order of the returns, is the beginning of the stream of one generator. -/
theorem C74_stream (next : σ → W × σ) (prog : Fin n → List (Call W (List W))) (g : σ) (s : Sys n σ W (List W))
    (hv : ∀ t, ∀ c ∈ prog t, ∃ k, c.body = words k []) (h : Sys.Reach next (Sys.init prog g) s) :
    ∃ rs : List (List W), s.log.map (fun e => e.2.2) = rs.map some ∧ rs.flatten = streamFrom next rs.flatten.length g := by
  have hpo := C74_valid next prog g s (fun t c hc => by obtain ⟨k, hk⟩ := hv t c hc; rw [hk]; exact words_noFail k []) h
  rw [C74_serial_partial next prog g s h hpo]
  apply serial_words
  intro b hb
  obtain ⟨e, he, rfl⟩ := List.mem_map.1 hb
  apply hv e.1
  apply (C74_program_order next prog g s h e.1).1.subset
  exact List.mem_map.2 ⟨e, List.mem_filter.2 ⟨he, by simp⟩, rfl⟩

/-- C74 (partial): when no argument runs Python code the threads never block each other for good: unless all calls have
returned, some thread can take a step. Missing: arguments with a Python `__index__`. -/
theorem C74_no_deadlock_partial (next : σ → W × σ) (prog : Fin n → List (Call W β)) (g : σ) (s : Sys n σ W β)
    (hy : ∀ t, ∀ c ∈ prog t, c.yields = false) (h : Sys.Reach next (Sys.init prog g) s) (hd : ¬ s.Done) :
    ∃ t s', Step next t s s' := by
  have hI := Inv.of_reach h
  have haway : ∀ t c, s.phase t ≠ .away c := by
    intro t c hc
    have h1 := hI.away t c hc
    have h2 := hy t c (by rw [← hI.calls t, hc]; simp [Phase.calls])
    rw [h1] at h2
    exact absurd h2 (by simp)
  cases hg : s.gil with
  | some t =>
    have ht := (hI.gil t).2 hg
    cases hp : s.phase t with
    | idle => rw [hp] at ht; exact absurd ht (by simp [Phase.hasGil])
    | away c => exact absurd hp (haway t c)
    | entered c =>
      have hl : s.lock = none := by
        cases hl : s.lock with
        | none => rfl
        | some u =>
          have hu := (hI.lock u).2 hl
          have hug : (s.phase u).hasGil = true := by
            cases hpu : s.phase u with
            | idle => rw [hpu] at hu; exact absurd hu (by simp [Phase.hasLock])
            | entered _ => rfl
            | locked _ => rfl
            | away c => exact absurd hpu (haway u c)
            | drawing _ _ => rfl
          have := hI.aloneGil ht hug
          subst this
          rw [hp] at hu
          exact absurd hu (by simp [Phase.hasLock])
      cases hpo : s.poisoned with
      | true => exact ⟨t, _, .refused s c hp hl hpo⟩
      | false => exact ⟨t, _, .lock s c hp hl hpo⟩
    | locked c => exact ⟨t, _, .start s c hp⟩
    | drawing c d =>
      cases d with
      | done b => exact ⟨t, _, .finish s c b hp⟩
      | fail => exact ⟨t, _, .panic s c hp⟩
      | draw k => exact ⟨t, _, .draw s c k hp⟩
  | none =>
    have hidle : ∀ t, s.phase t = .idle := by
      intro t
      have ht : ¬ (s.phase t).hasGil = true := by rw [hI.gil t, hg]; simp
      cases hp : s.phase t with
      | idle => rfl
      | away c => exact absurd hp (haway t c)
      | entered c => rw [hp] at ht; exact absurd rfl ht
      | locked c => rw [hp] at ht; exact absurd rfl ht
      | drawing c d => rw [hp] at ht; exact absurd rfl ht
    by_contra hno
    apply hd
    intro t
    refine ⟨hidle t, ?_⟩
    cases htodo : s.todo t with
    | nil => rfl
    | cons c cs => exact absurd ⟨t, _, .enter s c cs (hidle t) htodo hg⟩ hno

/-- C74: every schedule comes to an end: there is no infinite run. -/
theorem C74_terminates (next : σ → W × σ) (prog : Fin n → List (Call W β)) (g : σ) :
    ¬ ∃ run : Nat → Sys n σ W β, run 0 = Sys.init prog g ∧ ∀ i, ∃ t, Step next t (run i) (run (i + 1)) := by
  rintro ⟨run, h0, hrun⟩
  have hacc : Acc (fun s' s => ∃ t, Step next t s s') (run 0) := by
    rw [h0]
    exact Inv.acc _ _ le_rfl (Inv.init next prog g)
  have key : ∀ s, Acc (fun s' s => ∃ t, Step next t s s') s → ∀ i, run i ≠ s := by
    intro s hs
    induction hs with
    | intro s _ ih => intro i hi; exact ih (run (i + 1)) (hi ▸ hrun i) (i + 1) rfl
  exact key (run 0) hacc 0 rfl

/-- C74: from a reachable state in which a call has panicked, every call that returns later panics too, whatever
it is. -/
theorem C74_poisoned (next : σ → W × σ) (prog : Fin n → List (Call W β)) (g : σ) (s s' : Sys n σ W β)
    (h : Sys.Reach next (Sys.init prog g) s) (hp : s.poisoned = true) (h' : Sys.Reach next s s') :
    s'.poisoned = true ∧ ∃ later, s'.log = s.log ++ later ∧ ∀ e ∈ later, e.2.2 = none := by
  suffices H : Sys.Reach next (Sys.init prog g) s' ∧ s'.poisoned = true ∧ ∃ later, s'.log = s.log ++ later ∧ ∀ e ∈ later, e.2.2 = none from H.2
  induction h' with
  | refl => exact ⟨h, hp, [], by simp, by simp⟩
  | @step t a b _ hs ih =>
    obtain ⟨i1, i2, later, i3, i4⟩ := ih
    have hr := Sys.Reach.step t i1 hs
    have hI := Inv.of_reach i1
    have hul := hI.unlocked i2
    have hno : ¬ (a.phase t).hasLock = true := by rw [hI.lock t, hul]; simp
    refine ⟨hr, ?_⟩
    cases hs with
    | enter c cs hp ht hg => exact ⟨i2, later, i3, i4⟩
    | lock c hp hl hn => rw [i2] at hn; exact absurd hn (by simp)
    | refused c hp hl hn =>
      refine ⟨i2, later ++ [(t, c, none)], ?_, ?_⟩
      · show a.log ++ _ = _
        rw [i3, List.append_assoc]
      · intro e he
        rcases List.mem_append.1 he with he | he
        · exact i4 e he
        · rw [List.mem_singleton.1 he]
    | leave c hp hy => rw [hp] at hno; exact absurd rfl hno
    | back c hp hg => rw [hp] at hno; exact absurd rfl hno
    | start c hp => rw [hp] at hno; exact absurd rfl hno
    | draw c k hp => rw [hp] at hno; exact absurd rfl hno
    | finish c b hp => rw [hp] at hno; exact absurd rfl hno
    | panic c hp => rw [hp] at hno; exact absurd rfl hno

/-! ### Concrete runs -/

/-- A counter as the stream of words. -/
def tick (g : Nat) : Nat × Nat := (g, g + 1)

/-- A call that asks for one word. -/
def one : Call Nat (List Nat) := ⟨false, words 1 []⟩

/-- A call with refused parameters, such as `exponential(-1, size=3)`. -/
def refusedCall : Call Nat (List Nat) := ⟨false, .fail⟩

/-- The same as `one`, with a `size` that has a Python `__index__`. -/
def slow : Call Nat (List Nat) := ⟨true, words 1 []⟩

/-- One call run to its end by thread `t`. -/
theorem run_one (s : Sys n Nat Nat (List Nat)) (t : Fin n) (cs) (hp : s.phase t = .idle) (ht : s.todo t = one :: cs) (hg : s.gil = none)
    (hl : s.lock = none) (hn : s.poisoned = false) :
    ∃ s', Sys.Reach tick s s' ∧ s'.phase = s.phase ∧ s'.todo = Function.update s.todo t cs ∧ s'.gil = none ∧ s'.lock = none ∧
      s'.poisoned = false ∧ s'.gen = s.gen + 1 ∧ s'.log = s.log ++ [(t, one, some [s.gen])] := by
  refine ⟨_, Sys.Reach.step t (Sys.Reach.step t (Sys.Reach.step t (Sys.Reach.step t (Sys.Reach.step t .refl
    (.enter s one cs hp ht hg)) (.lock _ one upd_eq hl hn)) (.start _ one upd_eq)) (.draw _ one _ upd_eq))
    (.finish _ one _ upd_eq), ?_, rfl, rfl, rfl, hn, rfl, rfl⟩
  simp [hp.symm]

theorem reach_trans {next : σ → W × σ} {a b c : Sys n σ W β} (h1 : Sys.Reach next a b) (h2 : Sys.Reach next b c) : Sys.Reach next a c := by
  induction h2 with
  | refl => exact h1
  | step t _ hs ih => exact .step t ih hs

/-- Two threads with one call each can finish in the order 1, 0. -/
example : ∃ s, Sys.Reach tick (Sys.init (n := 2) (fun _ => [one]) 7) s ∧ s.log = [(1, one, some [7]), (0, one, some [8])] := by
  obtain ⟨s1, r1, p1, t1, g1, l1, n1, e1, o1⟩ := run_one (Sys.init (n := 2) (fun _ => [one]) 7) 1 [] rfl rfl rfl rfl rfl
  obtain ⟨s2, r2, -, -, -, -, -, -, o2⟩ := run_one s1 0 [] (by rw [p1]; rfl) (by rw [t1]; rfl) g1 l1 n1
  refine ⟨s2, reach_trans r1 r2, ?_⟩
  rw [o2, o1, e1]
  rfl

/-- C74: one call with refused parameters makes the generator useless: the next call, which would give the first word
of the stream, panics. -/
theorem C74_poison_counterexample :
    ∃ s : Sys 1 Nat Nat (List Nat), Sys.Reach tick (Sys.init (fun _ => [refusedCall, one]) 7) s ∧ s.Done ∧
      s.log.map (fun e => e.2.2) = [none, none] ∧ (serial tick (s.log.map fun e => e.2.1.body) 7).1 = [none, some [7]] := by
  let s0 : Sys 1 Nat Nat (List Nat) := Sys.init (fun _ => [refusedCall, one]) 7
  refine ⟨_, Sys.Reach.step 0 (Sys.Reach.step 0 (Sys.Reach.step 0 (Sys.Reach.step 0 (Sys.Reach.step 0 (Sys.Reach.step 0 .refl
    (.enter s0 refusedCall [one] rfl rfl rfl)) (.lock _ refusedCall rfl rfl rfl)) (.start _ refusedCall rfl))
    (.panic _ refusedCall rfl)) (.enter _ one [] rfl rfl rfl)) (.refused _ one rfl rfl rfl), ?_, rfl, rfl⟩
  intro t
  have : t = 0 := Subsingleton.elim _ _
  subst this
  exact ⟨rfl, rfl⟩

/-- C74: two threads can block each other: one has the generator's lock and waits for the interpreter, the other has
the interpreter and waits for the generator. -/
theorem C74_deadlock_counterexample :
    ∃ s : Sys 2 Nat Nat (List Nat), Sys.Reach tick (Sys.init (fun t => if t = 0 then [slow] else [one]) 7) s ∧
      s.log = [] ∧ ¬ s.Done ∧ ∀ t s', ¬ Step tick t s s' := by
  let s0 : Sys 2 Nat Nat (List Nat) := Sys.init (fun t => if t = 0 then [slow] else [one]) 7
  let s4 : Sys 2 Nat Nat (List Nat) :=
    { phase := Function.update (Function.update (Function.update (Function.update s0.phase 0 (.entered slow)) 0 (.locked slow)) 0 (.away slow)) 1 (.entered one),
      todo := Function.update (Function.update s0.todo 0 []) 1 [], gil := some 1, lock := some 0, poisoned := false, gen := 7, log := [] }
  have hr : Sys.Reach tick s0 s4 :=
    Sys.Reach.step 1 (Sys.Reach.step 0 (Sys.Reach.step 0 (Sys.Reach.step 0 .refl
      (.enter s0 slow [] rfl rfl rfl)) (.lock _ slow rfl rfl rfl)) (.leave _ slow rfl rfl))
      (.enter _ one [] rfl rfl rfl)
  have h0 : s4.phase 0 = .away slow := rfl
  have h1 : s4.phase 1 = .entered one := rfl
  refine ⟨s4, hr, rfl, ?_, ?_⟩
  · intro hd
    have := (hd 0).1
    rw [h0] at this
    exact absurd this (by simp)
  · intro t s' hs
    have ht : t = 0 ∨ t = 1 := by omega
    rcases ht with rfl | rfl
    · cases hs with
      | enter c cs hp ht hg => rw [h0] at hp; cases hp
      | lock c hp hl hn => rw [h0] at hp; cases hp
      | refused c hp hl hn => rw [h0] at hp; cases hp
      | leave c hp hy => rw [h0] at hp; cases hp
      | back c hp hg => cases hg
      | start c hp => rw [h0] at hp; cases hp
      | draw c k hp => rw [h0] at hp; cases hp
      | finish c b hp => rw [h0] at hp; cases hp
      | panic c hp => rw [h0] at hp; cases hp
    · cases hs with
      | enter c cs hp ht hg => rw [h1] at hp; cases hp
      | lock c hp hl hn => cases hl
      | refused c hp hl hn => cases hl
      | leave c hp hy => rw [h1] at hp; cases hp
      | back c hp hg => rw [h1] at hp; cases hp
      | start c hp => rw [h1] at hp; cases hp
      | draw c k hp => rw [h1] at hp; cases hp
      | finish c b hp => rw [h1] at hp; cases hp
      | panic c hp => rw [h1] at hp; cases hp

/-! ### The samplers are those of the generator -/

/-- C74: the call that asks for `k` words gives what `k` draws from the generator give. -/
theorem C74_words (next : σ → BitVec 64 × σ) (k : Nat) (g : σ) : ((words k []).run next g).1 = some (drawMany next k g).1 := by
  rw [words_run, streamFrom_drawMany]
  rfl

/-- C74: the sampler of a bounded integer gives what `bounded_uint64` gives, and leaves the same state. -/
theorem C74_bounded (next : σ → BitVec 64 × σ) (fuel range : Nat) (g : σ) (v : Nat) (g' : σ)
    (h : boundedUint64 next fuel range g = some (v, g')) : (boundedSampler fuel range).run next g = (some v, g') := by
  unfold boundedUint64 at h
  unfold boundedSampler
  by_cases h0 : range = 0
  · rw [if_pos h0] at h ⊢
    cases h
    rfl
  · rw [if_neg h0] at h ⊢
    dsimp only at h
    show Sampler.run next (if (next g).1.toNat * range % 2 ^ 64 < range then _ else _) (next g).2 = _
    by_cases h1 : (next g).1.toNat * range % 2 ^ 64 < range
    · rw [if_pos h1] at h ⊢
      cases hl : lemireLoop next range ((2 ^ 64 - range) % range) fuel ((next g).1.toNat * range) (next g).2 with
      | none => rw [hl] at h; exact absurd h (by simp)
      | some r =>
        obtain ⟨w, g''⟩ := r
        rw [hl] at h
        cases h
        exact (lemire_run next range _ fuel _ _).1 w g'' hl
    · rw [if_neg h1] at h ⊢
      cases h
      rfl

end Props
