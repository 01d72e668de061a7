import Verif.Model.SharedRng
import Mathlib.Algebra.BigOperators.Fin
import Mathlib.Algebra.Order.BigOperators.Group.Finset
/-! # Lemmas for C74 -/

namespace Rumpy
open Spec

variable {n : Nat} {σ W β : Type}

theorem serial_append (next : σ → W × σ) (l : List (Sampler W β)) (s : Sampler W β) (g : σ) :
    serial next (l ++ [s]) g = ((serial next l g).1 ++ [(s.run next (serial next l g).2).1], (s.run next (serial next l g).2).2) := by
  induction l generalizing g with
  | nil => rfl
  | cons a l ih =>
    show (_ :: (serial next (l ++ [s]) (a.run next g).2).1, (serial next (l ++ [s]) (a.run next g).2).2) = _
    rw [ih]
    rfl

/-- The phases with the interpreter lock. -/
def Phase.hasGil : Phase W β → Bool
  | .entered _ => true
  | .locked _ => true
  | .drawing _ _ => true
  | _ => false

/-- The phases with the generator's lock. -/
def Phase.hasLock : Phase W β → Bool
  | .locked _ => true
  | .away _ => true
  | .drawing _ _ => true
  | _ => false

/-- The call in progress. -/
def Phase.calls : Phase W β → List (Call W β)
  | .idle => []
  | .entered c => [c]
  | .locked c => [c]
  | .away c => [c]
  | .drawing c _ => [c]

/-- The bodies of the calls that have returned. -/
def Sys.bodies (s : Sys n σ W β) : List (Sampler W β) := s.log.map fun e => e.2.1.body

/-- What holds in every reachable state. -/
structure Inv (next : σ → W × σ) (prog : Fin n → List (Call W β)) (g0 : σ) (s : Sys n σ W β) : Prop where
  gil : ∀ t, (s.phase t).hasGil = true ↔ s.gil = some t
  lock : ∀ t, (s.phase t).hasLock = true ↔ s.lock = some t
  away : ∀ t c, s.phase t = .away c → c.yields = true
  calls : ∀ t, (s.log.filter fun e => e.1 = t).map (fun e => e.2.1) ++ (s.phase t).calls ++ s.todo t = prog t
  unlocked : s.poisoned = true → s.lock = none
  value : s.poisoned = false → (serial next s.bodies g0).1 = s.log.map fun e => e.2.2
  pending : s.poisoned = false → ∀ t c d, s.phase t = .drawing c d → c.body.run next (serial next s.bodies g0).2 = d.run next s.gen
  quiet : s.poisoned = false → (∀ t c d, s.phase t ≠ .drawing c d) → s.gen = (serial next s.bodies g0).2

theorem Inv.init (next : σ → W × σ) (prog : Fin n → List (Call W β)) (g0 : σ) : Inv next prog g0 (Sys.init prog g0) where
  gil t := by simp [Sys.init, Phase.hasGil]
  lock t := by simp [Sys.init, Phase.hasLock]
  away t c h := by simp [Sys.init] at h
  calls t := by simp [Sys.init, Phase.calls]
  unlocked h := by simp [Sys.init] at h
  value _ := rfl
  pending _ t c d h := by simp [Sys.init] at h
  quiet _ _ := rfl

/-- Only the thread with the generator's lock can be drawing. -/
theorem Inv.alone {next : σ → W × σ} {prog : Fin n → List (Call W β)} {g0 : σ} {s : Sys n σ W β} (h : Inv next prog g0 s)
    {t u : Fin n} (ht : (s.phase t).hasLock = true) (hu : (s.phase u).hasLock = true) : u = t := by
  rw [h.lock] at ht hu
  rw [ht] at hu
  exact (Option.some.inj hu).symm

theorem Inv.aloneGil {next : σ → W × σ} {prog : Fin n → List (Call W β)} {g0 : σ} {s : Sys n σ W β} (h : Inv next prog g0 s)
    {t u : Fin n} (ht : (s.phase t).hasGil = true) (hu : (s.phase u).hasGil = true) : u = t := by
  rw [h.gil] at ht hu
  rw [ht] at hu
  exact (Option.some.inj hu).symm

theorem upd_eq {f : Fin n → α} {t : Fin n} {a : α} : Function.update f t a t = a := Function.update_self t a f
theorem upd_ne {f : Fin n → α} {t u : Fin n} {a : α} (h : u ≠ t) : Function.update f t a u = f u := Function.update_of_ne h a f

theorem filter_append_self (l : List (Fin n × Call W β × Option β)) (t : Fin n) (c : Call W β) (r : Option β) :
    ((l ++ [(t, c, r)]).filter fun e => e.1 = t).map (fun e => e.2.1) = (l.filter fun e => e.1 = t).map (fun e => e.2.1) ++ [c] := by
  simp

theorem filter_append_other (l : List (Fin n × Call W β × Option β)) {t u : Fin n} (h : u ≠ t) (c : Call W β) (r : Option β) :
    ((l ++ [(t, c, r)]).filter fun e => e.1 = u).map (fun e => e.2.1) = (l.filter fun e => e.1 = u).map (fun e => e.2.1) := by
  simp [Ne.symm h]

theorem Inv.step {next : σ → W × σ} {prog : Fin n → List (Call W β)} {g0 : σ} {s s' : Sys n σ W β} (h : Inv next prog g0 s)
    {t : Fin n} (hs : Step next t s s') : Inv next prog g0 s' := by
  -- what the thread that moves holds
  have hG := h.gil t
  have hL := h.lock t
  have hC := h.calls t
  cases hs with
  | enter c cs hp ht hg =>
    rw [hp] at hL
    refine ⟨?_, ?_, ?_, ?_, h.unlocked, h.value, ?_, ?_⟩
    · intro u
      by_cases hu : u = t
      · subst hu; simp [Phase.hasGil]
      · show (Function.update s.phase t _ u).hasGil = true ↔ some t = some u
        rw [upd_ne hu, h.gil u, hg]
        simp [Ne.symm hu]
    · intro u
      by_cases hu : u = t
      · subst hu
        show (Function.update s.phase u _ u).hasLock = true ↔ s.lock = some u
        rw [upd_eq, ← hL]
        simp [Phase.hasLock]
      · show (Function.update s.phase t _ u).hasLock = true ↔ s.lock = some u
        rw [upd_ne hu, h.lock u]
    · intro u c' hc'
      by_cases hu : u = t
      · subst hu; simp at hc'
      · replace hc' := (upd_ne hu).symm.trans hc'
        exact h.away u c' hc'
    · intro u
      by_cases hu : u = t
      · subst hu
        show _ ++ (Function.update s.phase u _ u).calls ++ Function.update s.todo u cs u = _
        rw [upd_eq, upd_eq, ← h.calls u, hp, ht]
        simp [Phase.calls]
      · show _ ++ (Function.update s.phase t _ u).calls ++ Function.update s.todo t cs u = _
        rw [upd_ne hu, upd_ne hu, ← h.calls u]
    · intro hpo u c' d hd
      by_cases hu : u = t
      · subst hu; simp at hd
      · replace hd := (upd_ne hu).symm.trans hd
        exact h.pending hpo u c' d hd
    · intro hpo hq
      apply h.quiet hpo
      intro u c' d hd
      by_cases hu : u = t
      · subst hu; rw [hp] at hd; exact absurd hd (by simp)
      · exact hq u c' d ((upd_ne hu).trans hd)
  | lock c hp hl hn =>
    refine ⟨?_, ?_, ?_, ?_, ?_, h.value, ?_, ?_⟩
    · intro u
      by_cases hu : u = t
      · subst hu
        show (Function.update s.phase u _ u).hasGil = true ↔ s.gil = some u
        rw [upd_eq, ← h.gil u, hp]
        simp [Phase.hasGil]
      · show (Function.update s.phase t _ u).hasGil = true ↔ s.gil = some u
        rw [upd_ne hu, h.gil u]
    · intro u
      by_cases hu : u = t
      · subst hu; simp [Phase.hasLock]
      · show (Function.update s.phase t _ u).hasLock = true ↔ some t = some u
        rw [upd_ne hu, h.lock u, hl]
        simp [Ne.symm hu]
    · intro u c' hc'
      by_cases hu : u = t
      · subst hu; simp at hc'
      · replace hc' := (upd_ne hu).symm.trans hc'
        exact h.away u c' hc'
    · intro u
      by_cases hu : u = t
      · subst hu
        show _ ++ (Function.update s.phase u _ u).calls ++ s.todo u = _
        rw [upd_eq, ← h.calls u, hp]
        rfl
      · show _ ++ (Function.update s.phase t _ u).calls ++ s.todo u = _
        rw [upd_ne hu, ← h.calls u]
    · intro hpo; rw [show s.poisoned = true from hpo] at hn; exact absurd hn (by simp)
    · intro hpo u c' d hd
      by_cases hu : u = t
      · subst hu; simp at hd
      · replace hd := (upd_ne hu).symm.trans hd
        exact h.pending hpo u c' d hd
    · intro hpo hq
      apply h.quiet hpo
      intro u c' d hd
      by_cases hu : u = t
      · subst hu; rw [hp] at hd; exact absurd hd (by simp)
      · exact hq u c' d ((upd_ne hu).trans hd)
  | refused c hp hl hn =>
    refine ⟨?_, ?_, ?_, ?_, fun _ => hl, ?_, ?_, ?_⟩
    · intro u
      by_cases hu : u = t
      · subst hu; simp [Phase.hasGil]
      · show (Function.update s.phase t _ u).hasGil = true ↔ none = some u
        rw [upd_ne hu]
        constructor
        · intro hh
          exact absurd (h.aloneGil (t := t) (by rw [hp]; rfl) hh) hu
        · intro hh; exact absurd hh (by simp)
    · intro u
      by_cases hu : u = t
      · subst hu
        show (Function.update s.phase u _ u).hasLock = true ↔ s.lock = some u
        rw [upd_eq, ← h.lock u, hp]
        simp [Phase.hasLock]
      · show (Function.update s.phase t _ u).hasLock = true ↔ s.lock = some u
        rw [upd_ne hu, h.lock u]
    · intro u c' hc'
      by_cases hu : u = t
      · subst hu; simp at hc'
      · replace hc' := (upd_ne hu).symm.trans hc'
        exact h.away u c' hc'
    · intro u
      by_cases hu : u = t
      · subst hu
        show ((s.log ++ [(u, c, none)]).filter fun (e : Fin n × Call W β × Option β) => e.1 = u).map _ ++ (Function.update s.phase u _ u).calls ++ s.todo u = _
        rw [filter_append_self, upd_eq, ← h.calls u, hp]
        simp [Phase.calls]
      · show ((s.log ++ [(t, c, none)]).filter fun (e : Fin n × Call W β × Option β) => e.1 = u).map _ ++ (Function.update s.phase t _ u).calls ++ s.todo u = _
        rw [filter_append_other _ hu, upd_ne hu, ← h.calls u]
    · intro hpo; rw [show s.poisoned = false from hpo] at hn; exact absurd hn (by simp)
    · intro hpo; rw [show s.poisoned = false from hpo] at hn; exact absurd hn (by simp)
    · intro hpo; rw [show s.poisoned = false from hpo] at hn; exact absurd hn (by simp)
  | leave c hp hy =>
    refine ⟨?_, ?_, ?_, ?_, h.unlocked, h.value, ?_, ?_⟩
    · intro u
      by_cases hu : u = t
      · subst hu; simp [Phase.hasGil]
      · show (Function.update s.phase t _ u).hasGil = true ↔ none = some u
        rw [upd_ne hu]
        constructor
        · intro hh
          exact absurd (h.aloneGil (t := t) (by rw [hp]; rfl) hh) hu
        · intro hh; exact absurd hh (by simp)
    · intro u
      by_cases hu : u = t
      · subst hu
        show (Function.update s.phase u _ u).hasLock = true ↔ s.lock = some u
        rw [upd_eq, ← h.lock u, hp]
        simp [Phase.hasLock]
      · show (Function.update s.phase t _ u).hasLock = true ↔ s.lock = some u
        rw [upd_ne hu, h.lock u]
    · intro u c' hc'
      by_cases hu : u = t
      · subst hu
        replace hc' := upd_eq.symm.trans hc'
        cases hc'
        exact hy
      · replace hc' := (upd_ne hu).symm.trans hc'
        exact h.away u c' hc'
    · intro u
      by_cases hu : u = t
      · subst hu
        show _ ++ (Function.update s.phase u _ u).calls ++ s.todo u = _
        rw [upd_eq, ← h.calls u, hp]
        rfl
      · show _ ++ (Function.update s.phase t _ u).calls ++ s.todo u = _
        rw [upd_ne hu, ← h.calls u]
    · intro hpo u c' d hd
      by_cases hu : u = t
      · subst hu; simp at hd
      · replace hd := (upd_ne hu).symm.trans hd
        exact h.pending hpo u c' d hd
    · intro hpo hq
      apply h.quiet hpo
      intro u c' d hd
      by_cases hu : u = t
      · subst hu; rw [hp] at hd; exact absurd hd (by simp)
      · exact hq u c' d ((upd_ne hu).trans hd)
  | back c hp hg =>
    have hquiet : ∀ u c' d, s.phase u ≠ .drawing c' d := by
      intro u c' d hd
      have := h.alone (t := t) (u := u) (by rw [hp]; rfl) (by rw [hd]; rfl)
      subst this
      rw [hp] at hd
      exact absurd hd (by simp)
    refine ⟨?_, ?_, ?_, ?_, h.unlocked, h.value, ?_, ?_⟩
    · intro u
      by_cases hu : u = t
      · subst hu; simp [Phase.hasGil]
      · show (Function.update s.phase t _ u).hasGil = true ↔ some t = some u
        rw [upd_ne hu, h.gil u, hg]
        simp [Ne.symm hu]
    · intro u
      by_cases hu : u = t
      · subst hu
        show (Function.update s.phase u _ u).hasLock = true ↔ s.lock = some u
        rw [upd_eq, ← h.lock u, hp]
        simp [Phase.hasLock]
      · show (Function.update s.phase t _ u).hasLock = true ↔ s.lock = some u
        rw [upd_ne hu, h.lock u]
    · intro u c' hc'
      by_cases hu : u = t
      · subst hu; simp at hc'
      · replace hc' := (upd_ne hu).symm.trans hc'
        exact h.away u c' hc'
    · intro u
      by_cases hu : u = t
      · subst hu
        show _ ++ (Function.update s.phase u _ u).calls ++ s.todo u = _
        rw [upd_eq, ← h.calls u, hp]
        rfl
      · show _ ++ (Function.update s.phase t _ u).calls ++ s.todo u = _
        rw [upd_ne hu, ← h.calls u]
    · intro hpo u c' d hd
      by_cases hu : u = t
      · subst hu
        replace hd := upd_eq.symm.trans hd
        cases hd
        show c.body.run next _ = c.body.run next s.gen
        rw [h.quiet hpo hquiet]
        rfl
      · exact absurd ((upd_ne hu).symm.trans hd) (hquiet u c' d)
    · intro hpo hq
      exact absurd upd_eq (hq t c c.body)
  | start c hp =>
    have hquiet : ∀ u c' d, s.phase u ≠ .drawing c' d := by
      intro u c' d hd
      have := h.alone (t := t) (u := u) (by rw [hp]; rfl) (by rw [hd]; rfl)
      subst this
      rw [hp] at hd
      exact absurd hd (by simp)
    refine ⟨?_, ?_, ?_, ?_, h.unlocked, h.value, ?_, ?_⟩
    · intro u
      by_cases hu : u = t
      · subst hu
        show (Function.update s.phase u _ u).hasGil = true ↔ s.gil = some u
        rw [upd_eq, ← h.gil u, hp]
        simp [Phase.hasGil]
      · show (Function.update s.phase t _ u).hasGil = true ↔ s.gil = some u
        rw [upd_ne hu, h.gil u]
    · intro u
      by_cases hu : u = t
      · subst hu
        show (Function.update s.phase u _ u).hasLock = true ↔ s.lock = some u
        rw [upd_eq, ← h.lock u, hp]
        simp [Phase.hasLock]
      · show (Function.update s.phase t _ u).hasLock = true ↔ s.lock = some u
        rw [upd_ne hu, h.lock u]
    · intro u c' hc'
      by_cases hu : u = t
      · subst hu; simp at hc'
      · replace hc' := (upd_ne hu).symm.trans hc'
        exact h.away u c' hc'
    · intro u
      by_cases hu : u = t
      · subst hu
        show _ ++ (Function.update s.phase u _ u).calls ++ s.todo u = _
        rw [upd_eq, ← h.calls u, hp]
        rfl
      · show _ ++ (Function.update s.phase t _ u).calls ++ s.todo u = _
        rw [upd_ne hu, ← h.calls u]
    · intro hpo u c' d hd
      by_cases hu : u = t
      · subst hu
        replace hd := upd_eq.symm.trans hd
        cases hd
        show c.body.run next _ = c.body.run next s.gen
        rw [h.quiet hpo hquiet]
        rfl
      · exact absurd ((upd_ne hu).symm.trans hd) (hquiet u c' d)
    · intro hpo hq
      exact absurd upd_eq (hq t c c.body)
  | draw c k hp =>
    refine ⟨?_, ?_, ?_, ?_, h.unlocked, h.value, ?_, ?_⟩
    · intro u
      by_cases hu : u = t
      · subst hu
        show (Function.update s.phase u _ u).hasGil = true ↔ s.gil = some u
        rw [upd_eq, ← h.gil u, hp]
        simp [Phase.hasGil]
      · show (Function.update s.phase t _ u).hasGil = true ↔ s.gil = some u
        rw [upd_ne hu, h.gil u]
    · intro u
      by_cases hu : u = t
      · subst hu
        show (Function.update s.phase u _ u).hasLock = true ↔ s.lock = some u
        rw [upd_eq, ← h.lock u, hp]
        simp [Phase.hasLock]
      · show (Function.update s.phase t _ u).hasLock = true ↔ s.lock = some u
        rw [upd_ne hu, h.lock u]
    · intro u c' hc'
      by_cases hu : u = t
      · subst hu; simp at hc'
      · replace hc' := (upd_ne hu).symm.trans hc'
        exact h.away u c' hc'
    · intro u
      by_cases hu : u = t
      · subst hu
        show _ ++ (Function.update s.phase u _ u).calls ++ s.todo u = _
        rw [upd_eq, ← h.calls u, hp]
        rfl
      · show _ ++ (Function.update s.phase t _ u).calls ++ s.todo u = _
        rw [upd_ne hu, ← h.calls u]
    · intro hpo u c' d hd
      by_cases hu : u = t
      · subst hu
        replace hd := upd_eq.symm.trans hd
        cases hd
        exact h.pending hpo u c _ hp
      · replace hd := (upd_ne hu).symm.trans hd
        exact absurd (h.alone (t := t) (u := u) (by rw [hp]; rfl) (by rw [hd]; rfl)) hu
    · intro hpo hq
      exact absurd upd_eq (hq t c _)
  | finish c b hp =>
    have hothers : ∀ u, u ≠ t → ∀ c' d, s.phase u ≠ .drawing c' d := by
      intro u hu c' d hd
      exact hu (h.alone (t := t) (u := u) (by rw [hp]; rfl) (by rw [hd]; rfl))
    have hbodies : ∀ r, (Sys.bodies { s with lock := none, gil := none, phase := Function.update s.phase t .idle, log := s.log ++ [(t, c, r)] }) =
        s.bodies ++ [c.body] := by intro r; simp [Sys.bodies]
    refine ⟨?_, ?_, ?_, ?_, fun _ => rfl, ?_, ?_, ?_⟩
    · intro u
      by_cases hu : u = t
      · subst hu; simp [Phase.hasGil]
      · show (Function.update s.phase t _ u).hasGil = true ↔ none = some u
        rw [upd_ne hu]
        constructor
        · intro hh
          exact absurd (h.aloneGil (t := t) (by rw [hp]; rfl) hh) hu
        · intro hh; exact absurd hh (by simp)
    · intro u
      by_cases hu : u = t
      · subst hu; simp [Phase.hasLock]
      · show (Function.update s.phase t _ u).hasLock = true ↔ none = some u
        rw [upd_ne hu]
        constructor
        · intro hh
          exact absurd (h.alone (t := t) (by rw [hp]; rfl) hh) hu
        · intro hh; exact absurd hh (by simp)
    · intro u c' hc'
      by_cases hu : u = t
      · subst hu; simp at hc'
      · replace hc' := (upd_ne hu).symm.trans hc'
        exact h.away u c' hc'
    · intro u
      by_cases hu : u = t
      · subst hu
        show ((s.log ++ [(u, c, some b)]).filter fun (e : Fin n × Call W β × Option β) => e.1 = u).map _ ++ (Function.update s.phase u _ u).calls ++ s.todo u = _
        rw [filter_append_self, upd_eq, ← h.calls u, hp]
        simp [Phase.calls]
      · show ((s.log ++ [(t, c, some b)]).filter fun (e : Fin n × Call W β × Option β) => e.1 = u).map _ ++ (Function.update s.phase t _ u).calls ++ s.todo u = _
        rw [filter_append_other _ hu, upd_ne hu, ← h.calls u]
    · intro hpo
      rw [hbodies, serial_append, h.value hpo, h.pending hpo t c _ hp]
      simp [Sampler.run]
    · intro hpo u c' d hd
      by_cases hu : u = t
      · subst hu; simp at hd
      · exact absurd ((upd_ne hu).symm.trans hd) (hothers u hu c' d)
    · intro hpo hq
      rw [hbodies, serial_append, h.pending hpo t c _ hp]
      rfl
  | panic c hp =>
    refine ⟨?_, ?_, ?_, ?_, fun _ => rfl, ?_, ?_, ?_⟩
    · intro u
      by_cases hu : u = t
      · subst hu; simp [Phase.hasGil]
      · show (Function.update s.phase t _ u).hasGil = true ↔ none = some u
        rw [upd_ne hu]
        constructor
        · intro hh
          exact absurd (h.aloneGil (t := t) (by rw [hp]; rfl) hh) hu
        · intro hh; exact absurd hh (by simp)
    · intro u
      by_cases hu : u = t
      · subst hu; simp [Phase.hasLock]
      · show (Function.update s.phase t _ u).hasLock = true ↔ none = some u
        rw [upd_ne hu]
        constructor
        · intro hh
          exact absurd (h.alone (t := t) (by rw [hp]; rfl) hh) hu
        · intro hh; exact absurd hh (by simp)
    · intro u c' hc'
      by_cases hu : u = t
      · subst hu; simp at hc'
      · replace hc' := (upd_ne hu).symm.trans hc'
        exact h.away u c' hc'
    · intro u
      by_cases hu : u = t
      · subst hu
        show ((s.log ++ [(u, c, none)]).filter fun (e : Fin n × Call W β × Option β) => e.1 = u).map _ ++ (Function.update s.phase u _ u).calls ++ s.todo u = _
        rw [filter_append_self, upd_eq, ← h.calls u, hp]
        simp [Phase.calls]
      · show ((s.log ++ [(t, c, none)]).filter fun (e : Fin n × Call W β × Option β) => e.1 = u).map _ ++ (Function.update s.phase t _ u).calls ++ s.todo u = _
        rw [filter_append_other _ hu, upd_ne hu, ← h.calls u]
    · intro hpo; exact absurd hpo (by simp)
    · intro hpo; exact absurd hpo (by simp)
    · intro hpo; exact absurd hpo (by simp)

theorem Inv.of_reach {next : σ → W × σ} {prog : Fin n → List (Call W β)} {g0 : σ} {s : Sys n σ W β}
    (h : Sys.Reach next (Sys.init prog g0) s) : Inv next prog g0 s := by
  induction h with
  | refl => exact Inv.init next prog g0
  | step t _ hs ih => exact ih.step hs

/-! ### Termination -/

/-- How many kinds of step a thread may still take, apart from drawing. -/
def Phase.weight : Phase W β → Nat
  | .idle => 0
  | .entered _ => 4
  | .locked _ => 3
  | .away _ => 2
  | .drawing _ _ => 1

def Sys.weight (s : Sys n σ W β) : Nat := ∑ t, ((s.phase t).weight + 5 * (s.todo t).length)

theorem weight_lt {s s' : Sys n σ W β} (t : Fin n) (hp : ∀ u, u ≠ t → s'.phase u = s.phase u) (ht : ∀ u, u ≠ t → s'.todo u = s.todo u)
    (h : (s'.phase t).weight + 5 * (s'.todo t).length < (s.phase t).weight + 5 * (s.todo t).length) : s'.weight < s.weight := by
  unfold Sys.weight
  apply Finset.sum_lt_sum
  · intro u _
    by_cases hu : u = t
    · subst hu; exact h.le
    · rw [hp u hu, ht u hu]
  · exact ⟨t, Finset.mem_univ t, h⟩

/-- Every step but a draw makes the weight smaller. -/
theorem step_weight {next : σ → W × σ} {t : Fin n} {s s' : Sys n σ W β} (hs : Step next t s s') :
    s'.weight < s.weight ∨ ∃ c k, s.phase t = .drawing c (.draw k) ∧ s'.phase t = .drawing c (k (next s.gen).1) ∧ s'.weight = s.weight := by
  cases hs with
  | enter c cs hp ht hg =>
    left
    refine weight_lt t (fun u hu => upd_ne hu) (fun u hu => upd_ne hu) ?_
    show (Function.update s.phase t _ t).weight + 5 * (Function.update s.todo t cs t).length < _
    rw [upd_eq, upd_eq, hp, ht]
    simp only [Phase.weight, List.length_cons]
    omega
  | lock c hp hl hn =>
    left
    refine weight_lt t (fun u hu => upd_ne hu) (fun u hu => rfl) ?_
    show (Function.update s.phase t _ t).weight + _ < _
    rw [upd_eq, hp]
    simp only [Phase.weight]
    omega
  | refused c hp hl hn =>
    left
    refine weight_lt t (fun u hu => upd_ne hu) (fun u hu => rfl) ?_
    show (Function.update s.phase t _ t).weight + _ < _
    rw [upd_eq, hp]
    simp only [Phase.weight]
    omega
  | leave c hp hy =>
    left
    refine weight_lt t (fun u hu => upd_ne hu) (fun u hu => rfl) ?_
    show (Function.update s.phase t _ t).weight + _ < _
    rw [upd_eq, hp]
    simp only [Phase.weight]
    omega
  | back c hp hg =>
    left
    refine weight_lt t (fun u hu => upd_ne hu) (fun u hu => rfl) ?_
    show (Function.update s.phase t _ t).weight + _ < _
    rw [upd_eq, hp]
    simp only [Phase.weight]
    omega
  | start c hp =>
    left
    refine weight_lt t (fun u hu => upd_ne hu) (fun u hu => rfl) ?_
    show (Function.update s.phase t _ t).weight + _ < _
    rw [upd_eq, hp]
    simp only [Phase.weight]
    omega
  | draw c k hp =>
    right
    refine ⟨c, k, hp, upd_eq, ?_⟩
    unfold Sys.weight
    apply Finset.sum_congr rfl
    intro u _
    by_cases hu : u = t
    · subst hu
      show (Function.update s.phase u _ u).weight + _ = _
      rw [upd_eq, hp]
      rfl
    · show (Function.update s.phase t _ u).weight + _ = _
      rw [upd_ne hu]
  | finish c b hp =>
    left
    refine weight_lt t (fun u hu => upd_ne hu) (fun u hu => rfl) ?_
    show (Function.update s.phase t _ t).weight + _ < _
    rw [upd_eq, hp]
    simp only [Phase.weight]
    omega
  | panic c hp =>
    left
    refine weight_lt t (fun u hu => upd_ne hu) (fun u hu => rfl) ?_
    show (Function.update s.phase t _ t).weight + _ < _
    rw [upd_eq, hp]
    simp only [Phase.weight]
    omega

/-- From a state that satisfies the invariant no infinite run starts. -/
theorem Inv.acc {next : σ → W × σ} {prog : Fin n → List (Call W β)} {g0 : σ} :
    ∀ (N : Nat) (s : Sys n σ W β), s.weight ≤ N → Inv next prog g0 s → Acc (fun s' s => ∃ t, Step next t s s') s := by
  intro N
  induction N using Nat.strong_induction_on with
  | _ N ihN =>
    -- while one thread draws
    have hdraw : ∀ (d : Sampler W β) (s : Sys n σ W β) (t : Fin n) (c : Call W β), s.weight ≤ N → Inv next prog g0 s →
        s.phase t = .drawing c d → Acc (fun s' s => ∃ t, Step next t s s') s := by
      intro d
      induction d with
      | done b =>
        intro s t c hw hI hp
        constructor
        rintro s' ⟨u, hs⟩
        rcases step_weight hs with h | ⟨c', k, h1, -, -⟩
        · exact ihN s'.weight (by omega) s' le_rfl (hI.step hs)
        · have := hI.alone (t := t) (u := u) (by rw [hp]; rfl) (by rw [h1]; rfl)
          subst this
          rw [hp] at h1
          cases h1
      | fail =>
        intro s t c hw hI hp
        constructor
        rintro s' ⟨u, hs⟩
        rcases step_weight hs with h | ⟨c', k, h1, -, -⟩
        · exact ihN s'.weight (by omega) s' le_rfl (hI.step hs)
        · have := hI.alone (t := t) (u := u) (by rw [hp]; rfl) (by rw [h1]; rfl)
          subst this
          rw [hp] at h1
          cases h1
      | draw k ih =>
        intro s t c hw hI hp
        constructor
        rintro s' ⟨u, hs⟩
        rcases step_weight hs with h | ⟨c', k', h1, h2, h3⟩
        · exact ihN s'.weight (by omega) s' le_rfl (hI.step hs)
        · have := hI.alone (t := t) (u := u) (by rw [hp]; rfl) (by rw [h1]; rfl)
          subst this
          rw [hp] at h1
          cases h1
          exact ih _ s' u c (by omega) (hI.step hs) h2
    intro s hw hI
    constructor
    rintro s' ⟨u, hs⟩
    rcases step_weight hs with h | ⟨c', k, h1, h2, h3⟩
    · exact ihN s'.weight (by omega) s' le_rfl (hI.step hs)
    · exact hdraw _ s' u c' (by omega) (hI.step hs) h2

/-! ### Samplers -/

/-- A sampler that cannot fail. -/
def NoFail : Sampler W β → Prop
  | .done _ => True
  | .fail => False
  | .draw k => ∀ w, NoFail (k w)

theorem words_run (next : σ → W × σ) (m : Nat) (acc : List W) (g : σ) :
    ((words m acc).run next g).1 = some (acc.reverse ++ streamFrom next m g) := by
  induction m generalizing acc g with
  | zero => simp [words, Sampler.run, streamFrom]
  | succ m ih =>
    show ((words m ((next g).1 :: acc)).run next (next g).2).1 = _
    rw [ih]
    simp [streamFrom]

theorem streamFrom_add (next : σ → W × σ) (a b : Nat) (g : σ) (acc : List W) :
    streamFrom next a g ++ streamFrom next b ((words a acc).run next g).2 = streamFrom next (a + b) g := by
  induction a generalizing g acc with
  | zero => simp [words, Sampler.run, streamFrom]
  | succ a ih =>
    rw [Nat.succ_add]
    show (next g).1 :: (streamFrom next a (next g).2 ++ streamFrom next b ((words a ((next g).1 :: acc)).run next (next g).2).2) = _
    rw [ih]
    rfl

theorem words_noFail (m : Nat) (acc : List W) : NoFail (words m acc) := by
  induction m generalizing acc with
  | zero => trivial
  | succ m ih => intro w; exact ih _

theorem streamFrom_drawMany (next : σ → BitVec 64 × σ) (m : Nat) (g : σ) : streamFrom next m g = (drawMany next m g).1 := by
  induction m generalizing g with
  | zero => rfl
  | succ m ih =>
    show (next g).1 :: _ = (next g).1 :: _
    rw [ih]

theorem lemire_run (next : σ → BitVec 64 × σ) (range t : Nat) : ∀ (fuel m : Nat) (g : σ),
    (∀ v g', lemireLoop next range t fuel m g = some (v, g') → (lemireSampler range t fuel m).run next g = (some (v / 2 ^ 64), g')) ∧
    (lemireLoop next range t fuel m g = none → ((lemireSampler range t fuel m).run next g).1 = none) := by
  intro fuel
  induction fuel with
  | zero =>
    intro m g
    rw [lemireLoop.eq_def, lemireSampler.eq_def]
    dsimp only
    split
    · exact ⟨fun v g' h => absurd h (by simp), fun _ => rfl⟩
    · refine ⟨fun v g' h => ?_, fun h => absurd h (by simp)⟩
      cases h
      rfl
  | succ fuel ih =>
    intro m g
    rw [lemireLoop.eq_def, lemireSampler.eq_def]
    dsimp only
    split
    · exact ih _ _
    · refine ⟨fun v g' h => ?_, fun h => absurd h (by simp)⟩
      cases h
      rfl

end Rumpy
