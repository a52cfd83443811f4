import Verif.Lemmas.RingLive
/-
A run with its log, display and terminal is a run in the sense of C88.
-/
namespace Gomill.Ring.Live
open Jobs
variable {σ J X η V E : Type} {C : Competition σ J X η V E} {T : Texts σ J X η}

def lift {α : Type} : Except (RExc E) α → Except (DExc E) α
  | .ok a => .ok a
  | .error x => .error (.ring x)

def ttyStop : Except Unit Bool → Bool
  | .ok true => true
  | _ => false

def cmdStop : Option (Except Str Str) → Bool
  | some (.ok s) => s = "stop".toList
  | _ => false

/-- What C88 needs to know of the world. -/
def absEnv (d : Desk σ J X V E) (e : LEnv η) : Env η :=
  { stop := ttyStop (d.terminal.stopWasRequested e.tty).1 || cmdStop e.cmd.file, pick := e.pick, display := !d.screen.quiet, diskOk := e.diskOk, call := e.call,
    report := e.report }

theorem nextJob_rm (d : Desk σ J X V E) (e : LEnv η) (env : Env η) (h1 : env.pick = e.pick) (h2 : env.call = e.call) :
    (d.nextJob C T e).1 = lift (RM.nextJob C env d.rm).1 ∧ (d.nextJob C T e).2.rm = (RM.nextJob C env d.rm).2 := by
  unfold Desk.nextJob RM.nextJob
  rw [h1]
  cases d.rm.toReplay[e.pick % d.rm.toReplay.length]? with
  | some j => exact ⟨rfl, rfl⟩
  | none =>
    simp only
    unfold Desk.newGame RM.newGame
    rw [h2]
    rcases C.getGame e.call d.rm.comp with ⟨x | _ | j, c⟩
    · exact ⟨rfl, rfl⟩
    · exact ⟨rfl, rfl⟩
    · simp only
      by_cases hc : C.gameId j ∈ d.rm.inProgress.map C.gameId
      · rw [if_pos hc, if_pos hc]; exact ⟨rfl, rfl⟩
      · rw [if_neg hc, if_neg hc]; exact ⟨rfl, rfl⟩

theorem nextUnlessMax_rm (d : Desk σ J X V E) (e : LEnv η) (env : Env η) (h1 : env.pick = e.pick) (h2 : env.call = e.call) (h3 : env.stop = false)
    (hns : d.rm.stopping = false) :
    (d.nextUnlessMax C T e).1 = lift (RM.getJob1 C env d.rm).1 ∧ (d.nextUnlessMax C T e).2.rm = (RM.getJob1 C env d.rm).2 := by
  unfold Desk.nextUnlessMax RM.getJob1
  rw [if_neg (by rw [hns]; exact Bool.false_ne_true), if_neg (by rw [h3]; exact Bool.false_ne_true)]
  cases d.rm.maxGames with
  | none => exact nextJob_rm d e env h1 h2
  | some k =>
    simp only
    by_cases hk : k = 0
    · rw [if_pos hk, if_pos hk]; exact ⟨rfl, rfl⟩
    · rw [if_neg hk, if_neg hk]; exact nextJob_rm _ e env h1 h2

theorem getJob1_rm (d : Desk σ J X V E) (e : LEnv η) :
    ((d.getJob1 C T e).1 = .error .terminal ∧ (d.getJob1 C T e).2.rm = d.rm) ∨
    ((d.getJob1 C T e).1 = lift (RM.getJob1 C (absEnv d e) d.rm).1 ∧ (d.getJob1 C T e).2.rm = (RM.getJob1 C (absEnv d e) d.rm).2) := by
  unfold Desk.getJob1
  by_cases hs : d.rm.stopping = true
  · rw [if_pos hs]
    right
    unfold RM.getJob1
    rw [if_pos hs]
    exact ⟨rfl, rfl⟩
  · rw [if_neg hs]
    have hns := (Bool.not_eq_true _).mp hs
    have halt (hst : (absEnv d e).stop = true) : RM.getJob1 C (absEnv d e) d.rm = (.ok none, d.rm.halt) := by
      unfold RM.getJob1
      rw [if_neg hs, if_pos hst]
    rcases ht : d.terminal.stopWasRequested e.tty with ⟨r1, t⟩
    rcases r1 with u | _ | _
    · exact .inl ⟨rfl, rfl⟩
    · right
      simp only
      have hstop : (absEnv d e).stop = cmdStop e.cmd.file := by
        show (ttyStop (d.terminal.stopWasRequested e.tty).1 || cmdStop e.cmd.file) = _
        rw [ht]; rfl
      unfold Desk.afterTerminal
      split
      · rename_i hf
        exact nextUnlessMax_rm _ e _ rfl rfl (by rw [hstop, hf]; rfl) hns
      · rename_i m hf
        have hsame := warn_same ({ d with terminal := t } : Desk σ J X V E) ("error reading .cmd file:\n".toList ++ m)
        have := nextUnlessMax_rm (C := C) (T := T) (Desk.warn ({ d with terminal := t } : Desk σ J X V E) ("error reading .cmd file:\n".toList ++ m)) e (absEnv d e) rfl rfl
          (by rw [hstop, hf]; rfl) (by rw [hsame.rm]; exact hns)
        rw [hsame.rm] at this
        exact this
      · rename_i command hf
        split
        · rename_i hc
          rw [halt (by rw [hstop, hf]; exact decide_eq_true hc)]
          simp only
          split
          · exact ⟨rfl, rfl⟩
          · exact ⟨rfl, (warn_same _ _).rm⟩
        · rename_i hc
          exact nextUnlessMax_rm _ e _ rfl rfl (by rw [hstop, hf]; exact decide_eq_false hc) hns
    · right
      rw [halt (by show (ttyStop (d.terminal.stopWasRequested e.tty).1 || cmdStop e.cmd.file) = _; rw [ht]; rfl)]
      simp only
      split <;> exact ⟨rfl, rfl⟩

theorem getJob1_quiet (d : Desk σ J X V E) (e : LEnv η) : (d.getJob1 C T e).2.screen.quiet = d.screen.quiet := by
  have hn : ∀ d : Desk σ J X V E, (d.nextUnlessMax C T e).2.screen.quiet = d.screen.quiet := by
    intro d
    have hj : ∀ d : Desk σ J X V E, (d.nextJob C T e).2.screen.quiet = d.screen.quiet := by
      intro d
      unfold Desk.nextJob Desk.newGame
      repeat' split
      all_goals rfl
    unfold Desk.nextUnlessMax
    split
    · exact hj d
    · split
      · rfl
      · exact hj _
  unfold Desk.getJob1
  split
  · rfl
  · split
    · rfl
    · simp only; split <;> rfl
    · unfold Desk.afterTerminal
      split
      · exact hn _
      · rw [hn]; exact (warn_same _ _).quiet
      · split
        · simp only
          split
          · rfl
          · exact (warn_same _ _).quiet
        · exact hn _

theorem getJob_rm {d d' : Desk σ J X V E} {e : LEnv η} {r : Except (DExc E) (Option J)} (h : d.getJob C T e = (r, d')) :
    (r = .error .terminal ∧ d'.rm = d.rm) ∨
    (d'.rm = (RM.getJob C (absEnv d e) d.rm).2 ∧ (r = .error .screen ∨ r = lift (RM.getJob C (absEnv d e) d.rm).1)) := by
  unfold Desk.getJob at h
  have hq := getJob1_quiet (C := C) (T := T) d e
  rcases getJob1_rm (C := C) (T := T) d e with ⟨h1, h2⟩ | ⟨h1, h2⟩
  · rcases hg : d.getJob1 C T e with ⟨r1, d1⟩
    rw [hg] at h h1 h2
    simp only at h1
    subst h1
    obtain ⟨rfl, rfl⟩ := Prod.mk.inj h
    exact .inl ⟨rfl, h2⟩
  · right
    unfold RM.getJob
    rcases hg : d.getJob1 C T e with ⟨r1, d1⟩
    rcases hg' : RM.getJob1 C (absEnv d e) d.rm with ⟨r1', s1⟩
    rw [hg] at h h1 h2 hq
    rw [hg'] at h1 h2
    simp only at h1 h2 hq
    subst h1 h2
    cases r1' with
    | error x =>
      obtain ⟨rfl, rfl⟩ := Prod.mk.inj h
      exact ⟨rfl, .inr rfl⟩
    | ok r1 =>
      simp only [lift] at h
      rcases hu : d1.updateDisplay C T e.screen e.report with ⟨r2, d2⟩
      have hd := display_spec _ _ _ hu
      rw [hu] at h
      have hd2 : d' = d2 := by cases r2 <;> exact (Prod.mk.inj h).2.symm
      subst hd2
      simp only
      unfold RM.updateDisplay
      have hdis : (absEnv d e).display = !d1.screen.quiet := by rw [hq]; rfl
      have hrep : (absEnv d e).report = e.report := rfl
      rw [hdis, hrep]
      cases hq1 : d1.screen.quiet with
      | true =>
        obtain ⟨rfl, rfl⟩ := hd.isQuiet hq1
        obtain ⟨rfl, _⟩ := Prod.mk.inj h
        exact ⟨rfl, .inr rfl⟩
      | false =>
        simp only [Bool.not_false, if_true]
        rcases hd.cases hq1 with ⟨x, c, h3, rfl, h4, _⟩ | ⟨u, c, B, h3, h4, _, _, h5⟩
        · obtain ⟨rfl, _⟩ := Prod.mk.inj h
          rw [h3]
          exact ⟨h4, .inr rfl⟩
        · rw [h3]
          rcases h5 with rfl | ⟨rfl, _⟩
          · obtain ⟨rfl, _⟩ := Prod.mk.inj h
            exact ⟨h4, .inl rfl⟩
          · obtain ⟨rfl, _⟩ := Prod.mk.inj h
            exact ⟨h4, .inr rfl⟩

theorem processResponse_rm (d : Desk σ J X V E) (e : LEnv η) (j : J) (x : X) :
    (d.processResponse C T e j x).1 = lift (RM.processResponse C (absEnv d e) j x d.rm).1 ∧
    (d.processResponse C T e j x).2.rm = (RM.processResponse C (absEnv d e) j x d.rm).2 := by
  rw [processResponse_eq]
  unfold RM.processResponse RM.writeStatus
  rw [show (absEnv d e).call = e.call from rfl, show (absEnv d e).diskOk = e.diskOk from rfl]
  rcases C.processResult e.call j x d.rm.comp with ⟨y | u, c⟩
  · exact ⟨rfl, rfl⟩
  · simp only
    rcases popJob C d.rm.inProgress (C.gameId j) with _ | ⟨j', p⟩
    · exact ⟨rfl, rfl⟩
    · cases e.diskOk with
      | true => exact ⟨rfl, (say_same _ _ _).rm⟩
      | false => exact ⟨rfl, rfl⟩

theorem processError_rm (d : Desk σ J X V E) (e : LEnv η) (j : J) :
    (d.processError C T e j).1 = lift (RM.processError C (absEnv d e) j d.rm).1 ∧
    (d.processError C T e j).2.rm = (RM.processError C (absEnv d e) j d.rm).2 := by
  rw [processError_eq]
  unfold RM.processError RM.writeStatus
  rw [show (absEnv d e).call = e.call from rfl, show (absEnv d e).diskOk = e.diskOk from rfl]
  rcases C.processError e.call j (errorCount d.rm.errorCounts (C.gameId j)) d.rm.comp with ⟨y | ⟨stop, retry⟩, c⟩
  · exact ⟨rfl, rfl⟩
  · simp only [failedRM]
    cases RM.bookError C { d.rm with comp := c, voidGameCount := d.rm.voidGameCount + 1, acts := .failed j (errorCount d.rm.errorCounts (C.gameId j)) stop retry c :: d.rm.acts }
        j (errorCount d.rm.errorCounts (C.gameId j)) (retry && !stop) with
    | none => exact ⟨rfl, rfl⟩
    | some rm =>
      cases e.diskOk with
      | false => exact ⟨rfl, rfl⟩
      | true =>
        simp only [if_true]
        rcases Bool.eq_false_or_eq_true (stop && !rm.stopping) with hs | hs
        · simp only [hs, if_true]
          exact ⟨rfl, rfl⟩
        · simp only [hs, Bool.false_eq_true, if_false]
          exact ⟨rfl, rfl⟩

/-! ### whole runs -/

/-- An exception from the terminal or the screen. -/
def Odd : Phase (DExc E) → Prop
  | .finishing (some x) => x = .terminal ∨ x = .screen
  | .returned (some x) => x = .terminal ∨ x = .screen
  | _ => False

def dropExc : DExc E → RExc E
  | .ring x => x
  | _ => .keyError

def mapPhase : Phase (DExc E) → Phase (RExc E)
  | .looping => .looping
  | .waiting => .waiting
  | .finishing x => .finishing (x.map dropExc)
  | .returned x => .returned (x.map dropExc)

def mapMp (m : Mp (Desk σ J X V E) J X (DExc E)) : Mp (RM σ J X V E) J X (RExc E) :=
  { src := m.src.rm, number := m.number, active := m.active, jobQ := m.jobQ, workers := m.workers, respQ := m.respQ, phase := mapPhase m.phase, log := m.log }

theorem map_take (m : Mp (Desk σ J X V E) J X (DExc E)) (k : Nat) : mapMp (m.take k) = (mapMp m).take k ∧ (m.take k).phase = m.phase ∧ (m.take k).src = m.src := by
  unfold Mp.take mapMp
  simp only
  rcases hw : m.workers[k]? with _ | _ | _ | _ <;> rcases hq : m.jobQ with _ | ⟨_ | _, _⟩ <;> simp only [hq, and_self]

theorem map_finishJob (m : Mp (Desk σ J X V E) J X (DExc E)) (k : Nat) (x : Option X) :
    mapMp (m.finishJob k x) = (mapMp m).finishJob k x ∧ (m.finishJob k x).phase = m.phase ∧ (m.finishJob k x).src = m.src := by
  unfold Mp.finishJob mapMp
  simp only
  rcases m.workers[k]? with _ | _ | _ | _ <;> exact ⟨rfl, rfl, rfl⟩

theorem top_src {σ' : Type} {ε E' : Type} (S : Source σ' J X ε E') (e : ε) (m : Mp σ' J X E') (h : m.active < m.number) : (m.topOfLoop S e).src = (S.getJob e m.src).2 := by
  unfold Mp.topOfLoop
  rw [if_pos h]
  rcases hg : S.getJob e m.src with ⟨r | _ | _, s⟩
  · rfl
  · simp only
    unfold Mp.afterGet Mp.beginFinish
    split <;> rfl
  · rfl

/-- The run of C88 is the same so far, or this one has ended because of the terminal or the screen. -/
def SameRun (C : Competition σ J X η V E) (start : RM σ J X V E) (n : Nat) (m : Mp (Desk σ J X V E) J X (DExc E)) : Prop :=
  ∃ steps, (¬ Odd m.phase ∧ (Mp.start start n).run (Ring.source C) steps = mapMp m) ∨
    (Odd m.phase ∧ ((Mp.start start n : Mp (RM σ J X V E) J X (RExc E)).run (Ring.source C) steps).src = m.src.rm)

theorem run_snoc {σ' ε E' : Type} (S : Source σ' J X ε E') (m : Mp σ' J X E') (l : List (Step X ε)) (s : Step X ε) :
    m.run S (l ++ [s]) = (m.run S l).step S s := by
  unfold Mp.run; rw [List.foldl_append]; rfl

theorem sameRun_step {start : RM σ J X V E} {n : Nat} {m : Mp (Desk σ J X V E) J X (DExc E)} (h : SameRun C start n m) (s : Step X (LEnv η)) :
    SameRun C start n (m.step (source C T) s) := by
  obtain ⟨steps, h⟩ := h
  rcases h with ⟨ho, h⟩ | ⟨ho, h⟩
  · cases s with
    | take k =>
      obtain ⟨h1, h2, _⟩ := map_take m k
      refine ⟨steps ++ [.take k], .inl ⟨by show ¬ Odd (m.take k).phase; rw [h2]; exact ho, ?_⟩⟩
      rw [run_snoc, h]; exact h1.symm
    | finishJob k x =>
      obtain ⟨h1, h2, _⟩ := map_finishJob m k x
      refine ⟨steps ++ [.finishJob k x], .inl ⟨by show ¬ Odd (m.finishJob k x).phase; rw [h2]; exact ho, ?_⟩⟩
      rw [run_snoc, h]; exact h1.symm
    | mgr e =>
      show SameRun C start n (m.mgr (source C T) e)
      have hmgr (env : Env η) : (Mp.start start n).run (Ring.source C) (steps ++ [.mgr env]) = (mapMp m).mgr (Ring.source C) env := by rw [run_snoc, h]; rfl
      cases hp : m.phase with
      | returned x =>
        refine ⟨steps, .inl ?_⟩
        rw [show m.mgr (source C T) e = m by unfold Mp.mgr; rw [hp]]
        exact ⟨ho, h⟩
      | finishing x =>
        refine ⟨steps ++ [.mgr (absEnv m.src e)], .inl ?_⟩
        rw [hmgr]
        unfold Mp.mgr
        rw [show (mapMp m).phase = .finishing (x.map dropExc) by unfold mapMp; rw [hp]; rfl, hp]
        simp only
        rw [show (mapMp m).workers = m.workers from rfl]
        split
        · refine ⟨?_, rfl⟩
          rw [hp] at ho
          cases x <;> exact ho
        · exact ⟨ho, rfl⟩
      | waiting =>
        refine ⟨steps ++ [.mgr (absEnv m.src e)], .inl ?_⟩
        rw [hmgr]
        unfold Mp.mgr
        rw [show (mapMp m).phase = .waiting by unfold mapMp; rw [hp]; rfl, hp]
        simp only
        unfold Mp.takeResponse
        rw [show (mapMp m).respQ = m.respQ from rfl, show (mapMp m).src = m.src.rm from rfl]
        rcases hq : m.respQ with _ | ⟨⟨j, _ | x⟩, rest⟩
        · exact ⟨ho, rfl⟩
        · simp only
          obtain ⟨h1, h2⟩ := processError_rm (C := C) (T := T) m.src e j
          rw [show (source C T).processError e j m.src = m.src.processError C T e j from rfl,
            show (Ring.source C).processError (absEnv m.src e) j m.src.rm = RM.processError C (absEnv m.src e) j m.src.rm from rfl, h1, ← h2]
          cases (RM.processError C (absEnv m.src e) j m.src.rm).1 with
          | error y => exact ⟨by simp [lift, Mp.endOfLoop, Mp.beginFinish, Odd], rfl⟩
          | ok u => exact ⟨id, rfl⟩
        · simp only
          obtain ⟨h1, h2⟩ := processResponse_rm (C := C) (T := T) m.src e j x
          rw [show (source C T).processResponse e j x m.src = m.src.processResponse C T e j x from rfl,
            show (Ring.source C).processResponse (absEnv m.src e) j x m.src.rm = RM.processResponse C (absEnv m.src e) j x m.src.rm from rfl, h1, ← h2]
          cases (RM.processResponse C (absEnv m.src e) j x m.src.rm).1 with
          | error y => exact ⟨by simp [lift, Mp.endOfLoop, Mp.beginFinish, Odd], rfl⟩
          | ok u => exact ⟨id, rfl⟩
      | looping =>
        have hmap : (mapMp m).phase = .looping := by unfold mapMp; rw [hp]; rfl
        have hm1 : m.mgr (source C T) e = m.topOfLoop (source C T) e := by unfold Mp.mgr; rw [hp]
        have hm2 : (mapMp m).mgr (Ring.source C) (absEnv m.src e) = (mapMp m).topOfLoop (Ring.source C) (absEnv m.src e) := by unfold Mp.mgr; rw [hmap]
        rw [hm1]
        by_cases ha : m.active < m.number
        · rcases hg : m.src.getJob C T e with ⟨r, d'⟩
          have hg0 : (source C T).getJob e m.src = (r, d') := hg
          have key := getJob_rm hg
          have hsrc : (m.topOfLoop (source C T) e).src = d' := by rw [top_src _ _ _ ha, hg0]
          rcases key with ⟨rfl, hrm⟩ | ⟨hrm, rfl | hr⟩
          · refine ⟨steps, .inr ⟨?_, ?_⟩⟩
            · unfold Mp.topOfLoop; rw [if_pos ha, hg0]; exact .inl rfl
            · rw [h, hsrc, hrm]; rfl
          · refine ⟨steps ++ [.mgr (absEnv m.src e)], .inr ⟨?_, ?_⟩⟩
            · unfold Mp.topOfLoop; rw [if_pos ha, hg0]; exact .inr rfl
            · rw [hmgr, hm2, top_src _ _ _ (show (mapMp m).active < (mapMp m).number from ha), hsrc, hrm]; rfl
          · refine ⟨steps ++ [.mgr (absEnv m.src e)], .inl ?_⟩
            rw [hmgr, hm2]
            unfold Mp.topOfLoop
            rw [if_pos ha, if_pos (show (mapMp m).active < (mapMp m).number from ha), hg0]
            rw [show (Ring.source C).getJob (absEnv m.src e) (mapMp m).src = RM.getJob C (absEnv m.src e) m.src.rm from rfl]
            rcases hg' : RM.getJob C (absEnv m.src e) m.src.rm with ⟨r', s'⟩
            rw [hg'] at hr hrm
            simp only at hr hrm
            subst hr
            subst hrm
            rcases r' with y | _ | j
            · exact ⟨by simp [lift, Mp.beginFinish, Odd], rfl⟩
            · simp only [lift]
              unfold Mp.afterGet
              simp only
              rw [show (mapMp m).active = m.active from rfl]
              split
              · exact ⟨id, rfl⟩
              · exact ⟨id, rfl⟩
            · simp only [lift]
              refine ⟨by rw [hp]; exact id, ?_⟩
              unfold mapMp; rfl
        · refine ⟨steps ++ [.mgr (absEnv m.src e)], .inl ?_⟩
          rw [hmgr, hm2]
          unfold Mp.topOfLoop
          rw [if_neg ha, if_neg (show ¬ (mapMp m).active < (mapMp m).number from ha)]
          unfold Mp.afterGet
          rw [show (mapMp m).active = m.active from rfl]
          split
          · exact ⟨id, rfl⟩
          · exact ⟨id, rfl⟩
  · -- it has ended
    refine ⟨steps, .inr ?_⟩
    cases s with
    | take k =>
      obtain ⟨_, h2, h3⟩ := map_take m k
      show Odd (m.take k).phase ∧ _ = (m.take k).src.rm
      rw [h2, h3]; exact ⟨ho, h⟩
    | finishJob k x =>
      obtain ⟨_, h2, h3⟩ := map_finishJob m k x
      show Odd (m.finishJob k x).phase ∧ _ = (m.finishJob k x).src.rm
      rw [h2, h3]; exact ⟨ho, h⟩
    | mgr e =>
      show Odd (m.mgr (source C T) e).phase ∧ _ = (m.mgr (source C T) e).src.rm
      unfold Mp.mgr
      cases hp : m.phase with
      | looping => rw [hp] at ho; exact ho.elim
      | waiting => rw [hp] at ho; exact ho.elim
      | returned x => rw [hp] at ho; simp only; rw [hp]; exact ⟨ho, h⟩
      | finishing x =>
        rw [hp] at ho
        simp only
        split
        · exact ⟨by cases x <;> exact ho, h⟩
        · rw [hp]; exact ⟨ho, h⟩

theorem sameRun {n : Nat} (d : Desk σ J X V E) (steps : List (Step X (LEnv η))) :
    SameRun C d.rm n ((Mp.start d n).run (source C T) steps) := by
  induction steps using List.reverseRecOn with
  | nil => exact ⟨[], .inl ⟨id, rfl⟩⟩
  | append_singleton l s ih => rw [run_snoc]; exact sameRun_step ih s

end Gomill.Ring.Live
