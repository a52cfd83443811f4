import Verif.Props.RingFiles
/-
C79: starting a run.
-/
namespace Gomill.Conf
open Py Spec

/-! ### The steps of starting -/

theorem set_self (fs : Fs) (p : Str) (n : Option Node) : fs.set p n p = n := if_pos rfl
theorem set_other (fs : Fs) {p q : Str} (n : Option Node) (h : q ≠ p) : fs.set p n q = fs q := if_neg h

/-- What `openAppend` does. -/
theorem openAppend_ok {O : OpenWorld} {p : Str} {m m' : Machine} {i : Nat} (h : openAppend O p m = (.ok i, m')) :
    m'.lock = m.lock ∧ (∀ q, q ≠ p → m'.fs q = m.fs q) ∧ ((∃ t, m.fs p = some (.file i t) ∧ m'.fs p = some (.file i t)) ∨ (m.fs p = none ∧ i = m.next ∧ m'.fs p = some (.file i []))) := by
  unfold openAppend at h
  split at h
  · cases h
  · split at h
    · rename_i i' t heq; cases h; exact ⟨rfl, fun _ _ => rfl, .inl ⟨t, heq, heq⟩⟩
    · cases h
    · rename_i heq; cases h; exact ⟨rfl, fun q hq => set_other _ _ hq, .inr ⟨heq, rfl, set_self _ _ _⟩⟩

theorem openAppend_error {O : OpenWorld} {p : Str} {m m' : Machine} {e : Str} (h : openAppend O p m = (.error e, m')) : m' = m := by
  unfold openAppend at h
  split at h
  · cases h; rfl
  · split at h <;> cases h; rfl

theorem lockLog_ok {O : OpenWorld} (hO : O.flock = .ok ()) {pid i : Nat} {m m' : Machine} {x : Option Str} (h : lockLog O pid i m = (.ok x, m')) :
    x = none ∧ m'.fs = m.fs ∧ m.lock i = none ∧ m'.lock i = some pid ∧ ∀ j, j ≠ i → m'.lock j = m.lock j := by
  unfold lockLog at h
  rw [hO] at h
  simp only at h
  unfold takeLock at h
  cases hl : m.lock i with
  | some q => rw [hl] at h; cases h
  | none =>
    rw [hl] at h; cases h
    exact ⟨rfl, rfl, rfl, if_pos rfl, fun j hj => if_neg hj⟩

theorem lockLog_error {O : OpenWorld} {pid i : Nat} {m m' : Machine} {e : RmExc} (h : lockLog O pid i m = (.error e, m')) :
    m' = m ∧ e = .ringmaster "competition is already running".toList ∧ O.flock = .ok () ∧ m.lock i ≠ none := by
  unfold lockLog at h
  cases hf : O.flock with
  | error x => rw [hf] at h; cases h
  | ok u =>
    rw [hf] at h
    simp only at h
    unfold takeLock at h
    cases hl : m.lock i with
    | none => rw [hl] at h; cases h
    | some q => rw [hl] at h; cases h; exact ⟨rfl, rfl, rfl, by simp⟩

theorem lockLog_fs {O : OpenWorld} {pid i : Nat} {m m' : Machine} {x : Except RmExc (Option Str)} (h : lockLog O pid i m = (x, m')) :
    m'.fs = m.fs ∧ ∀ j, m'.lock j = m.lock j ∨ (m.lock j = none ∧ m'.lock j = some pid) := by
  unfold lockLog at h
  cases hf : O.flock with
  | error x => rw [hf] at h; cases h; exact ⟨rfl, fun _ => .inl rfl⟩
  | ok u =>
    rw [hf] at h
    simp only at h
    unfold takeLock at h
    cases hl : m.lock i with
    | some q => rw [hl] at h; cases h; exact ⟨rfl, fun _ => .inl rfl⟩
    | none =>
      rw [hl] at h; cases h
      refine ⟨rfl, fun j => ?_⟩
      by_cases hj : j = i
      · right; subst hj; exact ⟨hl, if_pos rfl⟩
      · left; exact if_neg hj

theorem removeCommand_spec {O : OpenWorld} {p : Str} {m m' : Machine} {x : Except RmExc Unit} (h : removeCommand O p m = (x, m')) :
    m'.lock = m.lock ∧ (∀ q, q ≠ p → m'.fs q = m.fs q) ∧
      ((x = .ok () ∧ m'.fs p = none) ∨ (m' = m ∧ ∃ e, x = .error (.ringmaster ("error removing existing .cmd file:\n".toList ++ e)))) := by
  unfold removeCommand at h
  split at h
  · rename_i heq; cases h; exact ⟨rfl, fun _ _ => rfl, .inl ⟨rfl, heq⟩⟩
  · split at h
    · cases h; exact ⟨rfl, fun _ _ => rfl, .inr ⟨rfl, _, rfl⟩⟩
    · split at h
      · cases h; exact ⟨rfl, fun _ _ => rfl, .inr ⟨rfl, _, rfl⟩⟩
      · cases h; exact ⟨rfl, fun q hq => set_other _ _ hq, .inl ⟨rfl, set_self _ _ _⟩⟩

theorem outputDir_spec {O : OpenWorld} {what : String} {ig : Option Str} {p : Str} {m m' : Machine} {x : Except RmExc Unit} (h : outputDir O what ig p m = (x, m')) :
    m'.lock = m.lock ∧ (∀ q, q ≠ p → m'.fs q = m.fs q) ∧
      ((x = .ok () ∧ ((m.fs p ≠ none ∧ m'.fs p = m.fs p) ∨ (m.fs p = none ∧ m'.fs p = some .dir))) ∨
       (m' = m ∧ m.fs p = none ∧ O.mkdirFails p ≠ none ∧
        ((ig = none ∧ x = .error (.other ⟨.other, "local variable 'e' referenced before assignment".toList⟩)) ∨
         ∃ e, ig = some e ∧ x = .error (.ringmaster ("failed to create ".toList ++ what.toList ++ " directory:\n".toList ++ e))))) := by
  unfold outputDir ensureDir at h
  cases hp : m.fs p with
  | some n =>
    rw [hp] at h; cases h
    exact ⟨rfl, fun _ _ => rfl, .inl ⟨rfl, .inl ⟨by simp, hp⟩⟩⟩
  | none =>
    rw [hp] at h
    simp only at h
    cases hm : O.mkdirFails p with
    | none =>
      rw [hm] at h; cases h
      exact ⟨rfl, fun q hq => set_other _ _ hq, .inl ⟨rfl, .inr ⟨rfl, set_self _ _ _⟩⟩⟩
    | some e =>
      rw [hm] at h
      simp only at h
      cases ig with
      | none => cases h; exact ⟨rfl, fun _ _ => rfl, .inr ⟨rfl, rfl, by simp, .inl ⟨rfl, rfl⟩⟩⟩
      | some e' => cases h; exact ⟨rfl, fun _ _ => rfl, .inr ⟨rfl, rfl, by simp, .inr ⟨e', rfl, rfl⟩⟩⟩

/-- What any part of starting does, as far as others are concerned. -/
structure Grows (pid : Nat) (p0 : Str) (m m' : Machine) : Prop where
  files : FilesOK m → FilesOK m'
  keeps : ∀ q, q ≠ p0 → m.fs q ≠ none → m'.fs q = m.fs q
  locks : ∀ j, m'.lock j = m.lock j ∨ (m.lock j = none ∧ m'.lock j = some pid)

theorem Grows.refl (pid : Nat) (p0 : Str) (m : Machine) : Grows pid p0 m m := ⟨id, fun _ _ _ => rfl, fun _ => .inl rfl⟩

theorem Grows.trans {pid : Nat} {p0 : Str} {m m' m'' : Machine} (h : Grows pid p0 m m') (h' : Grows pid p0 m' m'') : Grows pid p0 m m'' := by
  refine ⟨fun hf => h'.files (h.files hf), fun q hq hn => ?_, fun j => ?_⟩
  · have h1 := h.keeps q hq hn
    rw [h'.keeps q hq (by rw [h1]; exact hn), h1]
  · rcases h.locks j with h1 | ⟨h1, h2⟩
    · rw [← h1]; exact h'.locks j
    · rcases h'.locks j with h3 | ⟨h3, _⟩
      · exact .inr ⟨h1, h3.trans h2⟩
      · rw [h2] at h3; cases h3

theorem openAppend_grows {O : OpenWorld} {p : Str} {m m' : Machine} {x : Except Str Nat} (pid : Nat) (p0 : Str) (h : openAppend O p m = (x, m')) : Grows pid p0 m m' := by
  unfold openAppend at h
  split at h
  · cases h; exact .refl ..
  · split at h
    · cases h; exact .refl ..
    · cases h; exact .refl ..
    · rename_i heq
      cases h
      refine ⟨fun hf => ⟨?_, ?_⟩, fun q _ hn => set_other _ _ (fun e => hn (e ▸ heq)), fun _ => .inl rfl⟩
      · intro a b i t u ha hb
        have old : ∀ c v, c ≠ p → m.fs.set p (some (.file m.next [])) c = some (.file m.next v) → False := by
          intro c v hc h
          rw [set_other _ _ hc] at h
          exact absurd (hf.2 c _ v h) (Nat.lt_irrefl _)
        by_cases hpa : a = p <;> by_cases hpb : b = p
        · rw [hpa, hpb]
        · subst hpa
          have e := (set_self m.fs a (some (Node.file m.next []))).symm.trans ha
          have e := Option.some.inj e
          injection e with e1 _
          subst e1
          exact absurd hb (fun h => old b u hpb h)
        · subst hpb
          have e := (set_self m.fs b (some (Node.file m.next []))).symm.trans hb
          have e := Option.some.inj e
          injection e with e1 _
          subst e1
          exact absurd ha (fun h => old a t hpa h)
        · exact hf.1 a b i t u ((set_other m.fs (some (Node.file m.next [])) hpa).symm.trans ha) ((set_other m.fs (some (Node.file m.next [])) hpb).symm.trans hb)
      · intro a i t ha
        by_cases hpa : a = p
        · subst hpa
          have e := (set_self m.fs a (some (Node.file m.next []))).symm.trans ha
          have e := Option.some.inj e
          injection e with e1 _
          subst e1
          exact Nat.lt_succ_self _
        · exact Nat.lt_succ_of_lt (hf.2 a i t ((set_other m.fs (some (Node.file m.next [])) hpa).symm.trans ha))

theorem lockLog_grows {O : OpenWorld} {pid i : Nat} {m m' : Machine} {x : Except RmExc (Option Str)} (p0 : Str) (h : lockLog O pid i m = (x, m')) : Grows pid p0 m m' := by
  have hn : m'.next = m.next := by
    unfold lockLog at h
    cases hf : O.flock with
    | error x => rw [hf] at h; cases h; rfl
    | ok u =>
      rw [hf] at h
      simp only at h
      unfold takeLock at h
      cases hl : m.lock i with
      | some q => rw [hl] at h; cases h; rfl
      | none => rw [hl] at h; cases h; rfl
  obtain ⟨h1, h2⟩ := lockLog_fs h
  refine ⟨fun hf => ?_, fun q _ _ => by rw [h1], h2⟩
  unfold FilesOK
  rw [h1, hn]
  exact hf

/-- Emptying a pathname, or making a directory where there's nothing. -/
theorem set_files {fs : Fs} {lock : Nat → Option Nat} {next : Nat} {p : Str} {n : Option Node} (hn : n = none ∨ n = some .dir) (hf : FilesOK ⟨fs, lock, next⟩) :
    FilesOK ⟨fs.set p n, lock, next⟩ := by
  have old : ∀ a i t, fs.set p n a = some (.file i t) → fs a = some (.file i t) := by
    intro a i t h
    by_cases hp : a = p
    · subst hp
      rw [set_self] at h
      rcases hn with rfl | rfl <;> cases h
    · rwa [set_other _ _ hp] at h
  exact ⟨fun a b i t u ha hb => hf.1 a b i t u (old a i t ha) (old b i u hb), fun a i t ha => hf.2 a i t (old a i t ha)⟩

theorem removeCommand_grows {O : OpenWorld} {p : Str} {m m' : Machine} {x : Except RmExc Unit} (pid : Nat) (h : removeCommand O p m = (x, m')) : Grows pid p m m' := by
  obtain ⟨h1, h2, _⟩ := removeCommand_spec h
  refine ⟨fun hf => ?_, fun q hq _ => h2 q hq, fun j => .inl (by rw [h1])⟩
  unfold removeCommand at h
  split at h
  · cases h; exact hf
  · split at h
    · cases h; exact hf
    · split at h
      · cases h; exact hf
      · cases h; exact set_files (.inl rfl) hf

theorem outputDir_grows {O : OpenWorld} {what : String} {ig : Option Str} {p : Str} {m m' : Machine} {x : Except RmExc Unit} (pid : Nat) (p0 : Str)
    (h : outputDir O what ig p m = (x, m')) : Grows pid p0 m m' := by
  obtain ⟨h1, h2, h3⟩ := outputDir_spec h
  refine ⟨fun hf => ?_, fun q _ hn => ?_, fun j => .inl (by rw [h1])⟩
  · unfold outputDir ensureDir at h
    cases hp : m.fs p with
    | some n => rw [hp] at h; cases h; exact hf
    | none =>
      rw [hp] at h
      simp only at h
      cases hm : O.mkdirFails p with
      | none => rw [hm] at h; cases h; exact set_files (.inr rfl) hf
      | some e =>
        rw [hm] at h
        simp only at h
        cases ig <;> (cases h; exact hf)
  · by_cases hq : q = p
    · subst hq
      rcases h3 with ⟨_, ⟨_, h⟩ | ⟨h, _⟩⟩ | ⟨h, _⟩
      · exact h
      · exact absurd h hn
      · rw [h]
    · exact h2 q hq

theorem openFiles_grows {O : OpenWorld} {pid : Nat} {P : Paths} {rg wg : Bool} {m m' : Machine} {x : Except RmExc Nat} (h : openFiles O pid P rg wg m = (x, m')) :
    Grows pid P.command m m' := by
  unfold openFiles at h
  cases h1 : openAppend O P.log m with | mk x1 m1 =>
  have g1 := openAppend_grows pid P.command h1
  rw [h1] at h
  cases x1 with
  | error e => cases h; exact g1
  | ok i =>
  simp only at h
  cases h2 : lockLog O pid i m1 with | mk x2 m2 =>
  have g2 := g1.trans (lockLog_grows P.command h2)
  rw [h2] at h
  cases x2 with
  | error e => cases h; exact g2
  | ok ig =>
  simp only at h
  cases h3 : removeCommand O P.command m2 with | mk x3 m3 =>
  have g3 := g2.trans (removeCommand_grows pid h3)
  rw [h3] at h
  cases x3 with
  | error e => cases h; exact g3
  | ok u =>
  simp only at h
  cases h4 : openAppend O P.history m3 with | mk x4 m4 =>
  have g4 := g3.trans (openAppend_grows pid P.command h4)
  rw [h4] at h
  cases x4 with
  | error e => cases h; exact g4
  | ok u =>
  simp only at h
  cases h5 : (if rg then outputDir O "SGF" ig P.sgfDir m4 else (.ok (), m4)) with | mk x5 m5 =>
  have g5 : Grows pid P.command m m5 := by
    cases rg with
    | true => exact g4.trans (outputDir_grows pid P.command h5)
    | false => cases h5; exact g4
  rw [h5] at h
  cases x5 with
  | error e => cases h; exact g5
  | ok u =>
  simp only at h
  cases h6 : (if wg then outputDir O "GTP log" ig P.gtplogDir m5 else (.ok (), m5)) with | mk x6 m6 =>
  have g6 : Grows pid P.command m m6 := by
    cases wg with
    | true => exact g5.trans (outputDir_grows pid P.command h6)
    | false => cases h6; exact g5
  rw [h6] at h
  cases x6 with
  | error e => cases h; exact g6
  | ok u => cases h; exact g6

/-- The steps of a successful start. -/
theorem openFiles_steps {O : OpenWorld} {pid : Nat} {P : Paths} {rg wg : Bool} {m m' : Machine} {i : Nat} (h : openFiles O pid P rg wg m = (.ok i, m')) :
    ∃ m1 m2 m3 m4 m5 ig j, openAppend O P.log m = (.ok i, m1) ∧ lockLog O pid i m1 = (.ok ig, m2) ∧ removeCommand O P.command m2 = (.ok (), m3) ∧
      openAppend O P.history m3 = (.ok j, m4) ∧ (if rg then outputDir O "SGF" ig P.sgfDir m4 else (.ok (), m4)) = (.ok (), m5) ∧
      (if wg then outputDir O "GTP log" ig P.gtplogDir m5 else (.ok (), m5)) = (.ok (), m') := by
  unfold openFiles at h
  cases h1 : openAppend O P.log m with | mk x1 m1 =>
  rw [h1] at h
  cases x1 with
  | error e => cases h
  | ok i =>
  simp only at h
  cases h2 : lockLog O pid i m1 with | mk x2 m2 =>
  rw [h2] at h
  cases x2 with
  | error e => cases h
  | ok ig =>
  simp only at h
  cases h3 : removeCommand O P.command m2 with | mk x3 m3 =>
  rw [h3] at h
  cases x3 with
  | error e => cases h
  | ok u =>
  simp only at h
  cases h4 : openAppend O P.history m3 with | mk x4 m4 =>
  rw [h4] at h
  cases x4 with
  | error e => cases h
  | ok j =>
  simp only at h
  cases h5 : (if rg then outputDir O "SGF" ig P.sgfDir m4 else (.ok (), m4)) with | mk x5 m5 =>
  rw [h5] at h
  cases x5 with
  | error e => cases h
  | ok u =>
  simp only at h
  cases h6 : (if wg then outputDir O "GTP log" ig P.gtplogDir m5 else (.ok (), m5)) with | mk x6 m6 =>
  rw [h6] at h
  cases x6 with
  | error e => cases h
  | ok u => cases h; exact ⟨m1, m2, m3, m4, m5, ig, j, rfl, h2, h3, h4, h5, h6⟩

theorem dir_step {O : OpenWorld} {b : Bool} {what : String} {ig : Option Str} {p : Str} {m m' : Machine}
    (h : (if b then outputDir O what ig p m else (.ok (), m)) = (.ok (), m')) :
    m'.lock = m.lock ∧ (∀ q, (b = true → q ≠ p) → m'.fs q = m.fs q) ∧ (b = true → m'.fs p = some ((m.fs p).getD .dir)) := by
  cases b with
  | false => cases h; exact ⟨rfl, fun _ _ => rfl, nofun⟩
  | true =>
    obtain ⟨h1, h2, h3⟩ := outputDir_spec h
    refine ⟨h1, fun q hq => h2 q (hq rfl), fun _ => ?_⟩
    rcases h3 with ⟨_, ⟨ha, hb⟩ | ⟨ha, hb⟩⟩ | ⟨_, _, _, ⟨_, h⟩ | ⟨_, _, h⟩⟩
    · rw [hb]
      cases hm : m.fs p with
      | none => exact absurd hm ha
      | some n => rfl
    · rw [hb, ha]; rfl
    · cases h
    · cases h

/-- The pathnames used by a run are different. -/
structure PathsNe (P : Paths) : Prop where
  log_command : P.log ≠ P.command
  log_history : P.log ≠ P.history
  log_sgfDir : P.log ≠ P.sgfDir
  log_gtplogDir : P.log ≠ P.gtplogDir
  command_log : P.command ≠ P.log
  command_history : P.command ≠ P.history
  command_sgfDir : P.command ≠ P.sgfDir
  command_gtplogDir : P.command ≠ P.gtplogDir
  history_log : P.history ≠ P.log
  history_command : P.history ≠ P.command
  history_sgfDir : P.history ≠ P.sgfDir
  history_gtplogDir : P.history ≠ P.gtplogDir
  sgfDir_log : P.sgfDir ≠ P.log
  sgfDir_command : P.sgfDir ≠ P.command
  sgfDir_history : P.sgfDir ≠ P.history
  sgfDir_gtplogDir : P.sgfDir ≠ P.gtplogDir
  gtplogDir_log : P.gtplogDir ≠ P.log
  gtplogDir_command : P.gtplogDir ≠ P.command
  gtplogDir_history : P.gtplogDir ≠ P.history
  gtplogDir_sgfDir : P.gtplogDir ≠ P.sgfDir

theorem paths_ne {control : Str} {P : Paths} (hP : pathsOf control = .ok P) : PathsNe P := by
  have hnd := (C77_distinct control control P P hP hP).1
  have h : ([P.log, P.command, P.history, P.sgfDir, P.gtplogDir] : List Str).Nodup := by
    simp only [outputs, List.nodup_cons, List.mem_cons, not_or, List.not_mem_nil, not_false_eq_true, and_true] at hnd
    simp only [List.nodup_cons, List.mem_cons, not_or, List.not_mem_nil, not_false_eq_true, and_true, List.nodup_nil]
    tauto
  simp only [List.nodup_cons, List.mem_cons, not_or, List.not_mem_nil, not_false_eq_true, and_true, List.nodup_nil] at h
  obtain ⟨⟨a1, a2, a3, a4⟩, ⟨b1, b2, b3⟩, ⟨c1, c2⟩, d1⟩ := h
  exact ⟨a1, a2, a3, a4, Ne.symm a1, b1, b2, b3, Ne.symm a2, Ne.symm b1, c1, c2, Ne.symm a3, Ne.symm b2, Ne.symm c1, d1, Ne.symm a4, Ne.symm b3, Ne.symm c2, Ne.symm d1⟩

/-! ### The theorems -/

/-- C79: what a run finds when it has started. It holds the lock on the log file, which nobody held before; the log and history files are there, with what was in them; there
is no command file (from an earlier run); the directories it will write to are there; and nothing else has changed. -/
theorem C79_open (O : OpenWorld) (hO : O.flock = .ok ()) (pid : Nat) (control : Str) (P : Paths) (hP : pathsOf control = .ok P) (recordGames gtpLogs : Bool) (m m' : Machine) (i : Nat)
    (h : openFiles O pid P recordGames gtpLogs m = (.ok i, m')) :
    (m.lock i = none ∧ m'.lock i = some pid ∧ ∀ j, j ≠ i → m'.lock j = m.lock j) ∧
    (m'.fs P.log = some (.file i (textOf (m.fs P.log))) ∧ ∀ n, m.fs P.log = some n → n = .file i (textOf (m.fs P.log))) ∧
    m'.fs P.command = none ∧
    (∃ j, m'.fs P.history = some (.file j (textOf (m.fs P.history))) ∧ ∀ n, m.fs P.history = some n → n = .file j (textOf (m.fs P.history))) ∧
    (recordGames = true → m'.fs P.sgfDir = some ((m.fs P.sgfDir).getD .dir)) ∧
    (gtpLogs = true → m'.fs P.gtplogDir = some ((m.fs P.gtplogDir).getD .dir)) ∧
    ∀ q, q ≠ P.log → q ≠ P.command → q ≠ P.history → (recordGames = true → q ≠ P.sgfDir) → (gtpLogs = true → q ≠ P.gtplogDir) → m'.fs q = m.fs q := by
  have ne := paths_ne hP
  obtain ⟨m1, m2, m3, m4, m5, ig, j, h1, h2, h3, h4, h5, h6⟩ := openFiles_steps h
  obtain ⟨l1, f1, o1⟩ := openAppend_ok h1
  obtain ⟨_, f2, a2, b2, c2⟩ := lockLog_ok hO h2
  obtain ⟨l3, f3, o3⟩ := removeCommand_spec h3
  obtain ⟨l4, f4, o4⟩ := openAppend_ok h4
  obtain ⟨l5, f5, o5⟩ := dir_step h5
  obtain ⟨l6, f6, o6⟩ := dir_step h6
  have c3 : m3.fs P.command = none := by
    rcases o3 with ⟨_, h⟩ | ⟨_, e, h⟩
    · exact h
    · cases h
  have x56 : ∀ q, q ≠ P.sgfDir → q ≠ P.gtplogDir → m'.fs q = m4.fs q := fun q hs hg => (f6 q (fun _ => hg)).trans (f5 q (fun _ => hs))
  refine ⟨⟨?_, ?_, ?_⟩, ⟨?_, ?_⟩, ?_, ?_, ?_, ?_, ?_⟩
  · rw [← l1]; exact a2
  · rw [l6, l5, l4, l3]; exact b2
  · intro j hj; rw [l6, l5, l4, l3, c2 j hj, l1]
  · rw [x56 _ ne.log_sgfDir ne.log_gtplogDir, f4 _ ne.log_history, f3 _ ne.log_command, f2]
    rcases o1 with ⟨t, ha, hb⟩ | ⟨ha, _, hb⟩ <;> rw [ha, hb] <;> rfl
  · intro n hn
    rcases o1 with ⟨t, ha, hb⟩ | ⟨ha, _, hb⟩
    · rw [ha] at hn ⊢; cases hn; rfl
    · rw [ha] at hn; cases hn
  · rw [x56 _ ne.command_sgfDir ne.command_gtplogDir, f4 _ ne.command_history, c3]
  · have e : m3.fs P.history = m.fs P.history := by rw [f3 _ ne.history_command, f2, f1 _ ne.history_log]
    refine ⟨j, ?_, ?_⟩
    · rw [x56 _ ne.history_sgfDir ne.history_gtplogDir, ← e]
      rcases o4 with ⟨t, ha, hb⟩ | ⟨ha, _, hb⟩ <;> rw [ha, hb] <;> rfl
    · rw [← e]
      intro n hn
      rcases o4 with ⟨t, ha, hb⟩ | ⟨ha, _, hb⟩
      · rw [ha] at hn ⊢; cases hn; rfl
      · rw [ha] at hn; cases hn
  · intro hr
    rw [f6 _ (fun _ => ne.sgfDir_gtplogDir), o5 hr, f4 _ ne.sgfDir_history, f3 _ ne.sgfDir_command, f2, f1 _ ne.sgfDir_log]
  · intro hr
    rw [o6 hr, f5 _ (fun _ => ne.gtplogDir_sgfDir), f4 _ ne.gtplogDir_history, f3 _ ne.gtplogDir_command, f2, f1 _ ne.gtplogDir_log]
  · intro q q1 q2 q3 q4 q5
    rw [f6 q q5, f5 q q4, f4 q q3, f3 q q2, f2, f1 q q1]

/-- C79: if another run has the lock on the log file, there's a RingmasterError to say so, and nothing has been changed. -/
theorem C79_running (O : OpenWorld) (hO : O.flock = .ok ()) (pid other : Nat) (P : Paths) (recordGames gtpLogs : Bool) (m : Machine) (i : Nat) (t : Str)
    (hlog : m.fs P.log = some (.file i t)) (hopen : O.openFails P.log = none) (hlock : m.lock i = some other) :
    openFiles O pid P recordGames gtpLogs m = (.error (.ringmaster "competition is already running".toList), m) := by
  have h1 : openAppend O P.log m = (.ok i, m) := by unfold openAppend; rw [hopen, hlog]
  have h2 : lockLog O pid i m = (.error (.ringmaster "competition is already running".toList), m) := by
    unfold lockLog takeLock; rw [hO, hlock]
  unfold openFiles
  rw [h1]
  simp only
  rw [h2]

/-- C79: what can be wrong when a run doesn't start. The one exception which isn't a RingmasterError is from a slip in the handler for the failure of mkdir. -/
theorem C79_errors (O : OpenWorld) (hO : O.flock = .ok ()) (pid : Nat) (P : Paths) (recordGames gtpLogs : Bool) (m m' : Machine) (x : RmExc)
    (h : openFiles O pid P recordGames gtpLogs m = (.error x, m')) :
    (∃ e, x = .ringmaster ("failed to open log file:\n".toList ++ e)) ∨
    (x = .ringmaster "competition is already running".toList ∧ ∃ m1 i, openAppend O P.log m = (.ok i, m1) ∧ m1.lock i ≠ none) ∨
    (∃ e, x = .ringmaster ("error removing existing .cmd file:\n".toList ++ e)) ∨
    (∃ e, x = .ringmaster ("failed to open history file:\n".toList ++ e)) ∨
    (x = .other ⟨.other, "local variable 'e' referenced before assignment".toList⟩ ∧
      ((recordGames = true ∧ O.mkdirFails P.sgfDir ≠ none) ∨ (gtpLogs = true ∧ O.mkdirFails P.gtplogDir ≠ none))) := by
  unfold openFiles at h
  cases h1 : openAppend O P.log m with | mk x1 m1 =>
  rw [h1] at h
  cases x1 with
  | error e => cases h; exact .inl ⟨e, rfl⟩
  | ok i =>
  simp only at h
  cases h2 : lockLog O pid i m1 with | mk x2 m2 =>
  rw [h2] at h
  cases x2 with
  | error e =>
    obtain ⟨a, b, c, d⟩ := lockLog_error h2
    cases h; exact .inr (.inl ⟨b, m1, i, rfl, d⟩)
  | ok ig =>
  obtain ⟨rfl, -⟩ := lockLog_ok hO h2
  simp only at h
  cases h3 : removeCommand O P.command m2 with | mk x3 m3 =>
  rw [h3] at h
  cases x3 with
  | error e =>
    obtain ⟨_, _, ⟨hx, _⟩ | ⟨_, e', hx⟩⟩ := removeCommand_spec h3
    · cases hx
    · cases h; exact .inr (.inr (.inl ⟨e', by injection hx⟩))
  | ok u =>
  simp only at h
  cases h4 : openAppend O P.history m3 with | mk x4 m4 =>
  rw [h4] at h
  cases x4 with
  | error e => cases h; exact .inr (.inr (.inr (.inl ⟨e, rfl⟩)))
  | ok j =>
  simp only at h
  have key : ∀ {b : Bool} {what : String} {p : Str} {m m' : Machine} {e}, (if b then outputDir O what none p m else (.ok (), m)) = (.error e, m') →
      e = .other ⟨.other, "local variable 'e' referenced before assignment".toList⟩ ∧ b = true ∧ O.mkdirFails p ≠ none := by
    intro b what p m m' e h
    cases b with
    | false => cases h
    | true =>
      rw [if_pos rfl] at h
      obtain ⟨_, _, ⟨hx, _⟩ | ⟨_, _, hm, ⟨_, hx⟩ | ⟨_, hx, _⟩⟩⟩ := outputDir_spec h
      · cases hx
      · exact ⟨by injection hx, rfl, hm⟩
      · cases hx
  cases h5 : (if recordGames then outputDir O "SGF" none P.sgfDir m4 else (.ok (), m4)) with | mk x5 m5 =>
  rw [h5] at h
  cases x5 with
  | error e =>
    obtain ⟨a, b, c⟩ := key h5
    cases h; exact .inr (.inr (.inr (.inr ⟨a, .inl ⟨b, c⟩⟩)))
  | ok u =>
  simp only at h
  cases h6 : (if gtpLogs then outputDir O "GTP log" none P.gtplogDir m5 else (.ok (), m5)) with | mk x6 m6 =>
  rw [h6] at h
  cases x6 with
  | error e =>
    obtain ⟨a, b, c⟩ := key h6
    cases h; exact .inr (.inr (.inr (.inr ⟨a, .inr ⟨b, c⟩⟩)))
  | ok u => cases h

/-- C79: starting, whether or not it succeeds, doesn't change anything which was there, other than by removing the command file. -/
theorem C79_keeps (O : OpenWorld) (pid : Nat) (P : Paths) (recordGames gtpLogs : Bool) (m m' : Machine) (x : Except RmExc Nat)
    (h : openFiles O pid P recordGames gtpLogs m = (x, m')) (q : Str) (n : Node) (hq : m.fs q = some n) (hc : q ≠ P.command) : m'.fs q = some n := by
  rw [(openFiles_grows h).keeps q hc (by rw [hq]; simp), hq]

/-! ### Runs -/

/-- What's true in every session. -/
structure SInv (s : Session) : Prop where
  files : FilesOK s.machine
  runs : ∀ r ∈ s.running, (∃ control, pathsOf control = .ok r.paths) ∧ KeepsLog s.machine.fs r ∧ s.machine.lock r.file = some r.pid
  locks : ∀ j p, s.machine.lock j = some p → ∃ r ∈ s.running, r.pid = p ∧ r.file = j
  pids : ∀ r ∈ s.running, ∀ r' ∈ s.running, r.pid = r'.pid → r = r'

theorem keepsLog_grows {pid : Nat} {control control' : Str} {P : Paths} (hP : pathsOf control = .ok P) {m m' : Machine} (h : Grows pid P.command m m') {r : RunOf}
    (hr : pathsOf control' = .ok r.paths) (hk : KeepsLog m.fs r) : KeepsLog m'.fs r := by
  obtain ⟨t, ht⟩ := hk
  have hne : r.paths.log ≠ P.command := by
    intro e
    have hd := C77_distinct control control' P r.paths hP hr
    obtain ⟨hb, hc⟩ := hd.2 ⟨P.command, by simp [outputs], by simp [outputs, e]⟩
    obtain ⟨_, _, _, _, _, _, o1⟩ := pathsOf_iff.1 hP
    obtain ⟨_, _, _, _, _, _, o2⟩ := pathsOf_iff.1 hr
    rw [← hb, ← hc, ← o1] at o2
    have : r.paths.log = P.log := by
      unfold outputs at o2
      exact (List.cons.inj o2).1
    exact (paths_ne hP).log_command (this.symm.trans e)
  exact ⟨t, by rw [h.keeps _ hne (by rw [ht]; simp), ht]⟩

theorem release_some {pid j p : Nat} {m : Machine} : (releaseLocks pid m).lock j = some p ↔ m.lock j = some p ∧ p ≠ pid := by
  unfold releaseLocks
  simp only
  split
  · rename_i h
    rw [h]
    constructor
    · nofun
    · rintro ⟨h1, h2⟩; cases h1; exact absurd rfl h2
  · rename_i h
    constructor
    · intro h1; exact ⟨h1, fun e => h (e ▸ h1)⟩
    · exact fun h => h.1

theorem happens_inv {s s' : Session} (hi : SInv s) (h : Happens s s') : SInv s' := by
  cases h with
  | @start O pid control P rg wg i m hO hP hpid ho =>
    have hg := openFiles_grows ho
    obtain ⟨⟨a1, a2, a3⟩, ⟨b1, _⟩, _⟩ := C79_open O hO pid control P hP rg wg _ _ i ho
    refine ⟨hg.files hi.files, ?_, ?_, ?_⟩
    · intro r hr
      rcases List.mem_cons.1 hr with rfl | hr
      · exact ⟨⟨control, hP⟩, ⟨_, b1⟩, a2⟩
      · obtain ⟨⟨c, hc⟩, hk, hl⟩ := hi.runs r hr
        refine ⟨⟨c, hc⟩, keepsLog_grows hP hg hc hk, ?_⟩
        rw [a3 _ (fun e => by rw [e, a1] at hl; cases hl), hl]
    · intro j p hj
      by_cases e : j = i
      · subst e
        rw [a2] at hj
        cases hj
        exact ⟨_, List.mem_cons_self, rfl, rfl⟩
      · rw [a3 j e] at hj
        obtain ⟨r, hr, h⟩ := hi.locks j p hj
        exact ⟨r, List.mem_cons_of_mem _ hr, h⟩
    · intro r hr r' hr' e
      rcases List.mem_cons.1 hr with rfl | hr <;> rcases List.mem_cons.1 hr' with rfl | hr'
      · rfl
      · exact absurd e.symm (hpid r' hr')
      · exact absurd e (hpid r hr)
      · exact hi.pids r hr r' hr' e
  | @fail O pid control P rg wg e m hO hP hpid ho =>
    have hg := openFiles_grows ho
    refine ⟨hg.files hi.files, ?_, ?_, hi.pids⟩
    · intro r hr
      obtain ⟨⟨c, hc⟩, hk, hl⟩ := hi.runs r hr
      refine ⟨⟨c, hc⟩, keepsLog_grows hP hg hc hk, release_some.2 ⟨?_, hpid r hr⟩⟩
      rcases hg.locks r.file with h | ⟨h, _⟩
      · rw [h, hl]
      · rw [hl] at h; cases h
    · intro j p hj
      obtain ⟨hj, hp⟩ := release_some.1 hj
      rcases hg.locks j with h | ⟨_, h⟩
      · exact hi.locks j p (by rw [← h]; exact hj)
      · rw [h] at hj; cases hj; exact absurd rfl hp
  | @finish pid =>
    have hmem : ∀ r, r ∈ s.running.filter (fun r => r.pid ≠ pid) ↔ r ∈ s.running ∧ r.pid ≠ pid := by
      intro r; rw [List.mem_filter]; simp
    refine ⟨hi.files, ?_, ?_, ?_⟩
    · intro r hr
      obtain ⟨hr, hp⟩ := (hmem r).1 hr
      obtain ⟨hc, hk, hl⟩ := hi.runs r hr
      exact ⟨hc, hk, release_some.2 ⟨hl, hp⟩⟩
    · intro j p hj
      obtain ⟨hj, hp⟩ := release_some.1 hj
      obtain ⟨r, hr, e1, e2⟩ := hi.locks j p hj
      exact ⟨r, (hmem r).2 ⟨hr, by rw [e1]; exact hp⟩, e1, e2⟩
    · intro r hr r' hr' e
      exact hi.pids r ((hmem r).1 hr).1 r' ((hmem r').1 hr').1 e
  | other hk hn hf =>
    refine ⟨hf, fun r hr => ?_, hi.locks, hi.pids⟩
    obtain ⟨hc, _, hl⟩ := hi.runs r hr
    exact ⟨hc, hk r hr, hl⟩

theorem reach_inv {s : Session} (h : Reach s) : SInv s := by
  induction h with
  | init hf hl => exact ⟨hf, nofun, (fun j p h => by rw [hl] at h; cases h), nofun⟩
  | step _ h ih => exact happens_inv ih h

/-- C79: at most one run of a competition is in progress at any time: that is, of runs with the same log file (C77). -/
theorem C79_exclusive (s : Session) (h : Reach s) (r r' : RunOf) (hr : r ∈ s.running) (hr' : r' ∈ s.running) (hlog : r.paths.log = r'.paths.log) : r = r' := by
  have hi := reach_inv h
  obtain ⟨_, ⟨t, ht⟩, hl⟩ := hi.runs r hr
  obtain ⟨_, ⟨t', ht'⟩, hl'⟩ := hi.runs r' hr'
  rw [hlog, ht'] at ht
  have e : r'.file = r.file := by
    have := Option.some.inj ht
    injection this
  rw [e, hl] at hl'
  exact hi.pids r hr r' hr' (Option.some.inj hl')

/-- C79: a run is refused because the competition is already running only if it is: whatever happened to earlier runs, they don't prevent a new one. -/
theorem C79_restart (s : Session) (h : Reach s) (O : OpenWorld) (hO : O.flock = .ok ()) (pid : Nat) (P : Paths) (recordGames gtpLogs : Bool) (m' : Machine) :
    openFiles O pid P recordGames gtpLogs s.machine = (.error (.ringmaster "competition is already running".toList), m') →
    ∃ r ∈ s.running, r.paths.log = P.log := by
  intro hx
  have hi := reach_inv h
  have hne : ∀ (a : String) (e : Str), (∃ c, a.toList.head? = some c ∧ c ≠ 'c') → RmExc.ringmaster "competition is already running".toList ≠ .ringmaster (a.toList ++ e) := by
    rintro a e ⟨c, hc, hcc⟩ h
    injection h with h
    have := congrArg List.head? h
    cases ha : a.toList with
    | nil => rw [ha] at hc; cases hc
    | cons x xs =>
      rw [ha] at this hc
      have h2 : some 'c' = some x := this
      have h3 : some x = some c := hc
      exact hcc (Option.some.inj (h2.trans h3)).symm
  rcases C79_errors O hO pid P recordGames gtpLogs _ _ _ hx with ⟨e, h1⟩ | ⟨_, m1, i, h1, h2⟩ | ⟨e, h1⟩ | ⟨e, h1⟩ | ⟨h1, _⟩
  · exact absurd h1 (hne _ e ⟨'f', rfl, by decide⟩)
  · obtain ⟨l1, _, o1⟩ := openAppend_ok h1
    rw [l1] at h2
    cases hl : s.machine.lock i with
    | none => exact absurd hl h2
    | some p =>
      obtain ⟨r, hr, _, rfl⟩ := hi.locks i p hl
      obtain ⟨_, ⟨t, ht⟩, _⟩ := hi.runs r hr
      refine ⟨r, hr, ?_⟩
      rcases o1 with ⟨t', ht', _⟩ | ⟨_, hn, _⟩
      · exact hi.files.1 _ _ _ _ _ ht ht'
      · have := hi.files.2 _ _ _ ht
        rw [hn] at this
        exact absurd this (Nat.lt_irrefl _)
  · exact absurd h1 (hne _ e ⟨'e', rfl, by decide⟩)
  · exact absurd h1 (hne _ e ⟨'f', rfl, by decide⟩)
  · cases h1

/-- C79: while a run is in progress, another run of that competition is refused, and changes nothing. -/
theorem C79_refused (s : Session) (h : Reach s) (r : RunOf) (hr : r ∈ s.running) (O : OpenWorld) (hO : O.flock = .ok ()) (pid : Nat) (P : Paths) (recordGames gtpLogs : Bool)
    (hlog : P.log = r.paths.log) (hopen : O.openFails P.log = none) :
    openFiles O pid P recordGames gtpLogs s.machine = (.error (.ringmaster "competition is already running".toList), s.machine) := by
  obtain ⟨_, ⟨t, ht⟩, hl⟩ := (reach_inv h).runs r hr
  exact C79_running O hO pid r.pid P recordGames gtpLogs s.machine r.file t (by rw [hlog]; exact ht) hopen hl

/-! ### An example -/

/-- Nothing fails. -/
def plainOpen : OpenWorld := ⟨fun _ => none, fun _ => none, fun _ => none, .ok ()⟩

/-- A computer with the files of `exampleFs`, and no runs in progress. -/
def exampleMachine : Machine := ⟨exampleFs, fun _ => none, 6⟩

/-- The result of a start, as text. -/
def startView (x : Except RmExc Nat × Machine) : Str :=
  match x.1 with
  | .ok i => "log file ".toList ++ strInt i
  | .error (.ringmaster e) => e
  | .error (.controlFile e) => e
  | .error (.other e) => "other: ".toList ++ e.msg

/-- A file's number determines its name, in `exampleFs`. -/
def numbered (x : Str × Node) : Bool :=
  match x.2 with
  | .file i _ => i < 6 && x.1 = (["t/x.ctl", "t/x.log", "t/x.status", "t/x.games/0_1.sgf", "t/x.status.new", "t/x2.log"].map String.toList).getD i []
  | .dir => true

theorem exampleMachine_ok : FilesOK exampleMachine := by
  have key : ∀ p n, exampleFs p = some n → (p, n) ∈ ([("t/x.ctl".toList, Node.file 0 []), ("t/x.log".toList, .file 1 []), ("t/x.status".toList, .file 2 []), ("t/x.games".toList, .dir),
      ("t/x.games/0_1.sgf".toList, .file 3 []), ("t/x.status.new".toList, .file 4 []), ("t/x2.log".toList, .file 5 [])] : List (Str × Node)) := by
    intro p n h
    have h : List.lookup p _ = some n := h
    obtain ⟨l1, l2, e, _⟩ := List.lookup_eq_some_iff.1 h
    rw [e]; simp
  have u : ∀ x ∈ ([("t/x.ctl".toList, Node.file 0 []), ("t/x.log".toList, .file 1 []), ("t/x.status".toList, .file 2 []), ("t/x.games".toList, .dir),
      ("t/x.games/0_1.sgf".toList, .file 3 []), ("t/x.status.new".toList, .file 4 []), ("t/x2.log".toList, .file 5 [])] : List (Str × Node)), numbered x = true := by
    decide +kernel
  have v : ∀ p i t, exampleFs p = some (.file i t) → i < 6 ∧ p = (["t/x.ctl", "t/x.log", "t/x.status", "t/x.games/0_1.sgf", "t/x.status.new", "t/x2.log"].map String.toList).getD i [] := by
    intro p i t h
    have h := u _ (key p _ h)
    unfold numbered at h
    simp only [Bool.and_eq_true, decide_eq_true_iff] at h
    exact h
  exact ⟨fun p q i t w hp hq => (v p i t hp).2.trans (v q i w hq).2.symm, fun p i t hp => (v p i t hp).1⟩

/-- The machine after the run 100 of `t/x.ctl` has started. -/
def exampleStarted : Machine := (openFiles plainOpen 100 examplePaths true false exampleMachine).2

/-- C79: a run starts; a second run of that competition is refused, but one of another competition isn't; when the first run has ended (however that happened) another can start. All
this is an example of a session. The slip in the handler, when the directory for game records can't be made. If the log file is removed during the run (by resetting the competition, say), another run
can start. -/
theorem C79_witness :
    startView (openFiles plainOpen 100 examplePaths true false exampleMachine) = "log file 1".toList ∧
    startView (openFiles plainOpen 101 examplePaths true false exampleStarted) = "competition is already running".toList ∧
    startView (openFiles plainOpen 101 examplePaths true false (releaseLocks 100 exampleStarted)) = "log file 1".toList ∧
    Reach ⟨exampleStarted, [⟨100, examplePaths, 1⟩]⟩ ∧
    startView (openFiles { plainOpen with mkdirFails := fun _ => some "disk full".toList } 100 examplePaths true true exampleMachine) =
      "other: local variable 'e' referenced before assignment".toList ∧
    startView (openFiles plainOpen 101 examplePaths true false { exampleStarted with fs := (deleteStateAndOutput (exampleOs []) examplePaths exampleStarted.fs).2 }) =
      "log file 7".toList := by
  have hs : (openFiles plainOpen 100 examplePaths true false exampleMachine).1 = .ok 1 := by decide +kernel
  refine ⟨by decide +kernel, by decide +kernel, by decide +kernel, ?_, by decide +kernel, by decide +kernel⟩
  refine .step (.init exampleMachine_ok (fun _ => rfl)) (.start (O := plainOpen) (control := "t/x.ctl".toList) (recordGames := true) (gtpLogs := false) rfl C78_witness.1 nofun ?_)
  rw [← hs]; rfl

end Gomill.Conf
