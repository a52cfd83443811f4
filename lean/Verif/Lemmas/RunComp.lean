import Verif.Lemmas.RingmasterEnd
import Mathlib.Data.List.Induction
/-
A run's competition doesn't change, and what's saved are results of its jobs.
-/
namespace Gomill.Tourn
open Py Sched Jobs

theorem getGame_comp (t : State) : t.getGame.2.comp = t.comp := by
  unfold State.getGame
  split
  · rfl
  · split <;> rfl

theorem nextJob_comp (s : RM) (e : Env) : (s.nextJob e).2.t.comp = s.t.comp := by
  unfold RM.nextJob
  split
  · rfl
  · have := getGame_comp s.t
    unfold RM.newGame
    split
    · rename_i h; rw [h] at this; exact this
    · rename_i h; rw [h] at this; exact this
    · rename_i h
      rw [h] at this
      split
      · exact this
      · exact this

theorem updateDisplay_comp (s : RM) (e : Env) : (s.updateDisplay e).t.comp = s.t.comp := by
  unfold RM.updateDisplay
  split <;> rfl

theorem getJob1_comp (s : RM) (e : Env) : (s.getJob1 e).2.t.comp = s.t.comp := by
  unfold RM.getJob1
  split
  · rfl
  · split
    · rfl
    · split
      · exact nextJob_comp s e
      · split
        · rfl
        · exact nextJob_comp _ e

theorem getJob_comp (s : RM) (e : Env) : (RM.getJob e s).2.t.comp = s.t.comp := by
  have := getJob1_comp s e
  unfold RM.getJob
  split
  · rename_i h; rw [h] at this; exact this
  · rename_i h; rw [h] at this; rw [updateDisplay_comp]; exact this

theorem processGameResult_comp (t : State) (j : Job) (r : GameResult) : (t.processGameResult j r).2.comp = t.comp := by
  unfold State.processGameResult
  simp only
  split <;> rfl

theorem processResponse_comp (s : RM) (e : Env) (j : Job) (x : Outcome) : (RM.processResponse e j x s).2.t.comp = s.t.comp := by
  have := processGameResult_comp s.t j (j.result x)
  unfold RM.processResponse
  split
  · rename_i h; rw [h] at this; exact this
  · rename_i h
    rw [h] at this
    split
    · exact this
    · unfold RM.writeStatus; split <;> exact this

theorem processError_comp (s : RM) (e : Env) (j : Job) : (RM.processError e j s).2.t.comp = s.t.comp := by
  have := (processGameError_facts s.t j).1
  unfold RM.processError
  simp only
  split
  · rfl
  · rename_i s' hb
    have hs' : s'.t.comp = s.t.comp := by
      unfold RM.bookError at hb
      split at hb
      · simp at hb
      · split at hb <;> (simp only [Except.ok.injEq] at hb; rw [← hb]; exact this)
    unfold RM.writeStatus
    by_cases hd : e.diskOk = true
    · simp only [hd, if_true]; split <;> exact hs'
    · simp only [hd]; exact hs'

theorem step_comp (m : Mp RM Job Outcome RExc) (s : Step Outcome Env) : (m.step source s).src.t.comp = m.src.t.comp := by
  cases s with
  | take k => show (m.take k).src.t.comp = _; rw [(take_src m k).1]
  | finishJob k x => show (m.finishJob k x).src.t.comp = _; rw [(finishJob_src m k x).1]
  | mgr e =>
    show (m.mgr source e).src.t.comp = _
    unfold Mp.mgr
    split
    · unfold Mp.topOfLoop
      split
      · have := getJob_comp m.src e
        split
        · rename_i h
          rw [show RM.getJob e m.src = _ from h] at this
          unfold Mp.beginFinish
          exact this
        · rename_i h
          rw [show RM.getJob e m.src = _ from h] at this
          exact this
        · rename_i h
          rw [show RM.getJob e m.src = _ from h] at this
          unfold Mp.afterGet Mp.beginFinish
          split <;> exact this
      · unfold Mp.afterGet Mp.beginFinish
        split <;> rfl
    · unfold Mp.takeResponse
      split
      · rfl
      · unfold Mp.endOfLoop Mp.beginFinish
        split <;> exact processError_comp m.src e _
      · unfold Mp.endOfLoop Mp.beginFinish
        split <;> exact processResponse_comp m.src e _ _
    · split <;> rfl
    · rfl

theorem start_comp {c : Comp} {mg : Option Int} {disp : Bool} {disk : Option (Nat × Saved)} {s : RM} (h : RM.start c mg disp disk = .ok s) : s.t.comp = c :=
  (start_facts h).2.2.2.2.1

theorem after_snoc (events : List Event) (ev : Event) : World.after (events ++ [ev]) = (World.after events).step ev := by
  unfold World.after; rw [List.foldl_append]; rfl

/-- A run in progress was started with a control file. -/
theorem up_comp (events : List Event) : ∀ m, World.after events = .up m →
    ∃ ctl mg disp w, Event.start ctl mg disp w ∈ events ∧ ctl.initialise = .ok m.src.t.comp := by
  induction events using List.reverseRecOn with
  | nil => intro m h; cases h
  | append_singleton l ev ih =>
    intro m h
    rw [after_snoc] at h
    cases hw : World.after l with
    | down d =>
      rw [hw] at h
      cases ev with
      | start c mg disp n =>
        simp only [World.step] at h
        cases hc : c.initialise with
        | error e => rw [hc] at h; cases h
        | ok comp =>
          rw [hc] at h
          simp only at h
          cases hs : RM.start comp mg disp d with
          | error e => rw [hs] at h; cases h
          | ok s =>
            rw [hs] at h
            simp only at h
            split at h
            · injection h with h
              subst h
              refine ⟨c, mg, disp, n, by simp, ?_⟩
              rw [hc]
              show Except.ok comp = .ok s.t.comp
              rw [start_comp hs]
            · cases h
      | step s => cases h
      | down => cases h
    | up m' =>
      obtain ⟨ctl, mg, disp, w, h1, h2⟩ := ih m' hw
      rw [hw] at h
      cases ev with
      | start c mg' disp' n => injection h with h; subst h; exact ⟨ctl, mg, disp, w, List.mem_append_left _ h1, h2⟩
      | step s =>
        injection h with h
        subst h
        refine ⟨ctl, mg, disp, w, List.mem_append_left _ h1, ?_⟩
        rw [step_comp]; exact h2
      | down => cases h

/-- What's recorded is the result of one of the jobs of the run. -/
theorem records_job (events : List Event) (ev : Event) (j : Job) (x : Outcome) (h : (World.after events).records ev = some (j, x)) :
    ∃ ctl mg disp w comp, Event.start ctl mg disp w ∈ events ∧ ctl.initialise = .ok comp ∧ ∃ mu ∈ comp.matchups, ∃ n, j = mu.job n := by
  have hw : WInv noParams (World.after events) := winv_after events (fun ev _ => ok_noParams ev)
  cases hu : World.after events with
  | down d => rw [hu] at h; cases h
  | up m =>
    obtain ⟨ctl, mg, disp, w, h1, h2⟩ := up_comp events m hu
    refine ⟨ctl, mg, disp, w, _, h1, h2, ?_⟩
    rw [hu] at h hw
    cases ev with
    | start _ _ _ _ => cases h
    | down => cases h
    | step s =>
      replace h : stepRecords m s = some (j, x) := h
      cases s with
      | take k => cases h
      | finishJob k y => cases h
      | mgr e =>
        unfold stepRecords at h
        simp only at h
        split at h
        · rename_i j' x' rest hph hq
          split at h
          · simp only [Option.some.injEq, Prod.mk.injEq] at h
            obtain ⟨rfl, rfl⟩ := h
            have hr := UpInv.fine hw (by rw [hph]; trivial)
            have hj : j' ∈ m.src.inProgress := hr.flight.mem_iff.1 (by unfold Mp.inFlight; rw [hq]; simp)
            obtain ⟨⟨mu, hmu, he⟩, _⟩ := hr.core.jobs j' (List.mem_append_left _ hj)
            exact ⟨mu, hmu, _, he⟩
          · cases h
        · cases h

/-- What's saved are results of jobs for games of the matchup, as it was in one of the control files. -/
theorem saved_jobs (events : List Event) (k : Str) : ∀ r ∈ (World.after events).saved k,
    ∃ ctl mg disp w comp, Event.start ctl mg disp w ∈ events ∧ ctl.initialise = .ok comp ∧ ∃ mu ∈ comp.matchups, mu.id = k ∧ ∃ n x, r = (mu.job n).result x := by
  induction events using List.reverseRecOn with
  | nil => intro r h; cases h
  | append_singleton l ev ih =>
    intro r h
    rw [after_snoc, ((winv_after l (fun ev _ => ok_noParams ev)).step (ok_noParams ev)).2 k] at h
    rcases List.mem_append.1 h with h | h
    · obtain ⟨ctl, mg, disp, w, comp, h1, h2⟩ := ih r h
      exact ⟨ctl, mg, disp, w, comp, List.mem_append_left _ h1, h2⟩
    · cases hr : (World.after l).records ev with
      | none => rw [hr] at h; cases h
      | some y =>
        obtain ⟨j, x⟩ := y
        rw [hr] at h
        simp only at h
        split at h
        · rename_i hk
          obtain ⟨ctl, mg, disp, w, comp, h1, h2, mu, hmu, n, hj⟩ := records_job l ev j x hr
          refine ⟨ctl, mg, disp, w, comp, List.mem_append_left _ h1, h2, mu, hmu, ?_, n, x, ?_⟩
          · rw [hk, hj]; exact (job_fields mu n).1.symm
          · rw [List.mem_singleton.1 h, hj]
        · cases h

end Gomill.Tourn
