import Verif.Props.GameJobSgf
import Verif.Lemmas.JobGame
/-
C70: what a game job does: the files, the subprocesses, and the result.
-/
namespace Gomill.Gtp
open Py
open Gomill.Sgf
open Spec

variable {σ δ : Type}

/-! ### Environment variables -/

theorem lookup_dictSet (d : List (Str × Str)) (k v k' : Str) : (dictSet d k v).lookup k' = if k' = k then some v else d.lookup k' := by
  unfold dictSet
  by_cases h : k' = k
  · subst h; simp
  · rw [if_neg h, List.lookup_cons]
    have : (k' == k) = false := by simpa using h
    rw [this]
    show List.lookup k' (d.filter (fun kv => decide (kv.1 ≠ k))) = _
    induction d with
    | nil => rfl
    | cons x d ih =>
      obtain ⟨a, b⟩ := x
      by_cases ha : a = k
      · subst ha
        rw [List.filter_cons_of_neg (by simp), List.lookup_cons, this]
        exact ih
      · rw [List.filter_cons_of_pos (by simpa using ha), List.lookup_cons, List.lookup_cons]
        split
        · rfl
        · exact ih

theorem lookup_updates (l : List (Str × Str)) : ∀ (d : List (Str × Str)) (k : Str),
    (l.foldl (fun d kv => dictSet d kv.1 kv.2) d).lookup k = changed (fun k => d.lookup k) l k := by
  induction l with
  | nil => intro d k; rfl
  | cons x l ih =>
    intro d k
    rw [List.foldl_cons, ih]
    unfold changed
    rw [List.reverse_cons, List.find?_append]
    cases l.reverse.find? (fun kv => kv.1 = k) with
    | some y => rfl
    | none =>
      simp only [Option.none_or, lookup_dictSet, List.find?_cons, List.find?_nil]
      by_cases h : k = x.1
      · subst h; simp
      · have h' : ¬ x.1 = k := fun e => h e.symm
        simp [h, h']

/-- C70: the subprocess for a player: its command, working directory, and environment: GOMILL_GAME_ID is the game id, GOMILL_SLOT the worker id if there is one,
and all other variables are inherited except for the ones set for this player; the standard error goes to the job's file, or is discarded. -/
theorem C70_process (W : JobWorld σ) (job : GameJob δ) (workerId : Option Int) (c : Colour) :
    (jobPopen W job workerId c).args = (job.player c).cmdArgs ∧ (jobPopen W job workerId c).cwd = (job.player c).cwd ∧
    (jobPopen W job workerId c).stderr = (if (job.player c).discardStderr then some "/dev/null".toList else job.stderrPathname) ∧
    (jobPopen W job workerId c).env.lookup "GOMILL_GAME_ID".toList = some job.gameId ∧
    (∀ i, workerId = some i → (jobPopen W job workerId c).env.lookup "GOMILL_SLOT".toList = some (strInt i)) ∧
    (∀ k, k ≠ "GOMILL_GAME_ID".toList → (k = "GOMILL_SLOT".toList → workerId = none) →
      (jobPopen W job workerId c).env.lookup k = changed (fun k => W.osEnviron.lookup k) ((job.player c).environ.getD []) k) := by
  have hne : "GOMILL_GAME_ID".toList ≠ "GOMILL_SLOT".toList := by decide +kernel
  have hmake : ∀ k, ((job.player c).makeEnviron W.osEnviron).lookup k = changed (fun k => W.osEnviron.lookup k) ((job.player c).environ.getD []) k := by
    intro k
    unfold JobPlayer.makeEnviron
    cases (job.player c).environ with
    | none => rfl
    | some l => exact lookup_updates l _ k
  refine ⟨rfl, rfl, rfl, ?_, ?_, ?_⟩
  · show (jobEnviron W job workerId (job.player c)).lookup _ = _
    unfold jobEnviron
    cases workerId with
    | none => simp only [lookup_dictSet, if_true]
    | some i => simp only [lookup_dictSet, if_neg hne, if_true]
  · rintro i rfl
    show (jobEnviron W job (some i) (job.player c)).lookup _ = _
    unfold jobEnviron
    simp only [lookup_dictSet, if_true]
  · intro k h1 h2
    rw [← hmake]
    show (jobEnviron W job workerId (job.player c)).lookup _ = _
    unfold jobEnviron
    cases workerId with
    | none => simp only [lookup_dictSet, if_neg h1]
    | some i =>
      have : k ≠ "GOMILL_SLOT".toList := fun e => nomatch h2 e
      simp only [lookup_dictSet, if_neg h1, if_neg this]

/-! ### Files -/

theorem openAfter_append (es fs : List JobEvent) : ∀ files, openAfter files (es ++ fs) = (openAfter files es).bind (fun f => openAfter f fs) := by
  induction es with
  | nil => intro files; rfl
  | cons e es ih =>
    intro files
    cases e with
    | opened p => exact ih _
    | closed p =>
      simp only [List.cons_append, openAfter]
      split
      · exact ih _
      · rfl
    | wrote p t =>
      simp only [List.cons_append, openAfter]
      split
      · exact ih _
      · rfl
    | madeDir p => exact ih _
    | spawned c p =>
      simp only [List.cons_append, openAfter]
      split
      · exact ih _
      · rfl

theorem written_append (es fs : List JobEvent) : written (es ++ fs) = written es ++ written fs := List.filterMap_append
theorem started_append (es fs : List JobEvent) : started (es ++ fs) = started es ++ started fs := List.filterMap_append

theorem written_closed (l : List Str) : written (l.map .closed) = [] := by
  induction l with
  | nil => rfl
  | cons a l ih => exact ih

theorem started_closed (l : List Str) : started (l.map .closed) = [] := by
  induction l with
  | nil => rfl
  | cons a l ih => exact ih

/-- Closing all of the files. -/
theorem openAfter_close : ∀ (l files : List Str), files.Perm l → openAfter files (l.map .closed) = some [] := by
  intro l
  induction l with
  | nil => intro files h; rw [h.eq_nil]; rfl
  | cons a l ih =>
    intro files h
    have ha : a ∈ files := h.mem_iff.2 (by simp)
    simp only [List.map_cons, openAfter, if_pos ha]
    refine ih _ ?_
    have := h.erase a
    simpa using this

/-- The state of a job before it has recorded a game; `cs` are the players started. -/
structure Going (W : JobWorld σ) (job : GameJob δ) (workerId : Option Int) (cs : List Colour) (st : JobSt σ) : Prop where
  files : ∃ l, openAfter [] st.trace = some l ∧ l.Perm st.toClose
  written : written st.trace = []
  started : started st.trace = cs.map (fun c => (c, jobPopen W job workerId c))
  ctl : ∀ c, (st.ctl c).isSome ↔ c ∈ cs
  late : st.late = []

theorem going_init (W : JobWorld σ) (job : GameJob δ) (workerId : Option Int) : Going W job workerId [] JobSt.init :=
  ⟨⟨[], rfl, .refl _⟩, rfl, rfl, fun _ => by simp [JobSt.init], rfl⟩

theorem going_openFile {W : JobWorld σ} {job : GameJob δ} {workerId : Option Int} {cs : List Colour} {st : JobSt σ} (h : Going W job workerId cs st) (path : Option Str)
    {r : Except Stop Unit} {st' : JobSt σ} (hs : st.openFile W path = (r, st')) :
    Going W job workerId cs st' ∧ (r = .error .other ∨ r = .ok () ∧ ∀ p, path = some p → p ∈ st'.toClose) ∧ st'.ctl = st.ctl ∧ st'.desc = st.desc := by
  unfold JobSt.openFile at hs
  cases path with
  | none => cases hs; exact ⟨h, .inr ⟨rfl, (fun _ h => nomatch h)⟩, rfl, rfl⟩
  | some p =>
    simp only at hs
    split at hs
    · cases hs
      obtain ⟨l, h1, h2⟩ := h.files
      refine ⟨⟨⟨p :: l, ?_, ?_⟩, ?_, ?_, h.ctl, h.late⟩, .inr ⟨rfl, ?_⟩, rfl, rfl⟩
      · rw [openAfter_append, h1]; rfl
      · exact (h2.cons p).trans (List.perm_append_singleton p st.toClose).symm
      · rw [written_append, h.written]; rfl
      · rw [started_append, h.started]; simp [Spec.started, JobEvent.process]
      · rintro q ⟨⟩; simp
    · cases hs
      exact ⟨h, .inl rfl, rfl, rfl⟩

theorem going_startPlayer {W : JobWorld σ} {job : GameJob δ} {workerId : Option Int} {cs : List Colour} {st : JobSt σ} (h : Going W job workerId cs st) (c : Colour)
    {r : Except Stop Unit} {st' : JobSt σ} (hs : startPlayer W job workerId c st = (r, st')) :
    (Going W job workerId cs st' ∧ r ≠ .ok () ∧ (∀ d, st'.ctl d = st.ctl d ∧ st'.desc d = st.desc d) ∧
      (∀ msg, r = .error (.gtp msg) → ∃ m, W.spawn (jobPopen W job workerId c) = .error m ∧
        msg = "error starting subprocess for player ".toList ++ (job.player c).code ++ ":\n".toList ++ m)) ∨
    (Going W job workerId (cs ++ [c]) st' ∧ (∀ d, d ≠ c → st'.ctl d = st.ctl d ∧ st'.desc d = st.desc d) ∧
      ∃ chan x desc, W.spawn (jobPopen W job workerId c) = .ok chan ∧
        setUpPlayer W (job.player c) (Ctl.init chan ("player ".toList ++ (job.player c).code)) = (r, desc, x) ∧ st'.ctl c = some x ∧ st'.desc c = desc) := by
  unfold startPlayer at hs
  cases ho : st.openFile W (stderrPath job (job.player c)) with
  | mk x st1 =>
    simp only [ho] at hs
    obtain ⟨h1, h2, h3, h3'⟩ := going_openFile h _ ho
    cases x with
    | error e =>
      cases hs
      rcases h2 with h2 | h2
      · cases h2
        exact .inl ⟨h1, (fun h => nomatch h), fun d => ⟨by rw [h3], by rw [h3']⟩, (fun _ h => nomatch h)⟩
      · exact nomatch h2.1
    | ok u =>
      have h2' : ∀ p, stderrPath job (job.player c) = some p → p ∈ st1.toClose := by
        rcases h2 with h2 | h2
        · exact nomatch h2
        · exact h2.2
      simp only at hs
      cases hsp : W.spawn (jobPopen W job workerId c) with
      | error msg =>
        simp only [hsp] at hs
        cases hs
        exact .inl ⟨h1, (fun h => nomatch h), fun d => ⟨by rw [h3], by rw [h3']⟩, fun m hm => ⟨msg, rfl, by cases hm; rfl⟩⟩
      | ok chan =>
        simp only [hsp] at hs
        cases hsu : setUpPlayer W (job.player c) (Ctl.init chan ("player ".toList ++ (job.player c).code)) with
        | mk r' y =>
          obtain ⟨desc, x⟩ := y
          simp only [hsu] at hs
          cases hs
          right
          refine ⟨⟨?_, ?_, ?_, ?_, h1.late⟩, ?_, chan, x, desc, rfl, hsu, ?_, ?_⟩
          · obtain ⟨l, g1, g2⟩ := h1.files
            refine ⟨l, ?_, g2⟩
            show openAfter [] (st1.trace ++ _) = _
            rw [openAfter_append, g1]
            simp only [Option.bind_some, openAfter]
            rw [if_pos]
            intro e he
            exact g2.mem_iff.2 (h2' e he)
          · show written (st1.trace ++ _) = _
            rw [written_append, h1.written]; rfl
          · show Spec.started (st1.trace ++ _) = _
            rw [started_append, h1.started]; simp [Spec.started, JobEvent.process]
          · intro d
            have := h1.ctl d
            by_cases hd : d = c
            · subst hd; simp [JobSt.setCtl]
            · simp [JobSt.setCtl, hd, this]
          · intro d hd
            simp [JobSt.setCtl, hd, h3, h3']
          · simp [JobSt.setCtl]
          · simp

/-! ### Closing the engines -/

theorem safeClose_closed (C : Channel σ) (c c' : Ctl σ) (h : c.safeClose C = (.ok (), c')) : c'.closed = true := by
  unfold Ctl.safeClose at h
  split at h
  · rename_i hc; cases h; exact hc
  · split at h
    · cases h
    · split at h <;> cases h <;> rfl

/-- What is the same before and after closing the engines. -/
structure SameJob (st st' : JobSt σ) : Prop where
  trace : st'.trace = st.trace
  toClose : st'.toClose = st.toClose
  desc : st'.desc = st.desc
  some : ∀ c, (st'.ctl c).isSome = (st.ctl c).isSome

theorem closePlayer_spec (W : JobWorld σ) (c : Colour) (st : JobSt σ) :
    SameJob st (st.closePlayer W c).2 ∧ (∀ d, d ≠ c → (st.closePlayer W c).2.ctl d = st.ctl d) ∧
    ((st.closePlayer W c).1 = .ok () → (∀ x, (st.closePlayer W c).2.ctl c = some x → x.closed = true) ∧
      (st.closePlayer W c).2.late = st.late ++ errorsOf (st.closePlayer W c).2 c) := by
  unfold JobSt.closePlayer
  cases hx : st.ctl c with
  | none => exact ⟨⟨rfl, rfl, rfl, fun _ => rfl⟩, fun _ _ => rfl, fun _ => ⟨(fun x h => by rw [hx] at h; cases h), by simp [errorsOf, hx]⟩⟩
  | some x =>
    simp only
    have hsome : ∀ (y : Ctl σ) (d : Colour), ((st.setCtl c y).ctl d).isSome = (st.ctl d).isSome := by
      intro y d
      by_cases hd : d = c
      · subst hd; simp [JobSt.setCtl, hx]
      · simp [JobSt.setCtl, hd]
    cases hy : x.safeClose W.channel with
    | mk r y =>
      cases r with
      | error e => exact ⟨⟨rfl, rfl, rfl, hsome y⟩, fun d hd => by simp [JobSt.setCtl, hd], (fun h => nomatch h)⟩
      | ok u =>
        refine ⟨⟨rfl, rfl, rfl, hsome y⟩, fun d hd => by simp [JobSt.setCtl, hd], fun _ => ⟨?_, ?_⟩⟩
        · intro z hz
          simp only [JobSt.setCtl, if_true, Option.some.injEq] at hz
          subst hz
          exact safeClose_closed _ _ _ hy
        · simp [JobSt.setCtl, errorsOf]

theorem closePlayers_spec (W : JobWorld σ) (st : JobSt σ) :
    SameJob st (st.closePlayers W).2 ∧
    ((st.closePlayers W).1 = .ok () → (∀ c x, (st.closePlayers W).2.ctl c = some x → x.closed = true) ∧
      (st.closePlayers W).2.late = st.late ++ Spec.lateErrors (st.closePlayers W).2) := by
  unfold JobSt.closePlayers
  obtain ⟨a1, a2, a3⟩ := closePlayer_spec W .b st
  cases hx : st.closePlayer W .b with
  | mk r st1 =>
    rw [hx] at a1 a2 a3
    cases r with
    | error e => exact ⟨a1, (fun h => nomatch h)⟩
    | ok u =>
      simp only
      obtain ⟨b1, b2, b3⟩ := closePlayer_spec W .w st1
      refine ⟨⟨b1.trace.trans a1.trace, b1.toClose.trans a1.toClose, b1.desc.trans a1.desc, fun c => (b1.some c).trans (a1.some c)⟩, ?_⟩
      intro hok
      obtain ⟨c1, c2⟩ := a3 rfl
      obtain ⟨d1, d2⟩ := b3 hok
      have hb : (st1.closePlayer W .w).2.ctl .b = st1.ctl .b := b2 .b (by decide)
      constructor
      · intro c x h
        cases c with
        | b => rw [hb] at h; exact c1 x h
        | w => exact d1 x h
      · rw [d2, c2]
        unfold Spec.lateErrors errorsOf
        rw [hb, List.append_assoc]

theorem going_close {W : JobWorld σ} {job : GameJob δ} {workerId : Option Int} {cs : List Colour} {st st' : JobSt σ} (h : Going W job workerId cs st) (hs : SameJob st st') :
    (∃ l, openAfter [] st'.trace = some l ∧ l.Perm st'.toClose) ∧ Spec.written st'.trace = [] ∧ Spec.started st'.trace = cs.map (fun c => (c, jobPopen W job workerId c)) ∧
      (∀ c, (st'.ctl c).isSome ↔ c ∈ cs) := by
  rw [hs.trace, hs.toClose]
  exact ⟨h.files, h.written, h.started, fun c => by rw [hs.some]; exact h.ctl c⟩

/-! ### Recording -/

/-- What `_record_game` and `_record_void_game` can do: nothing, or write one file to the given directory. -/
inductive Noted (path : Option Str) : List JobEvent → Prop
  | nothing : Noted path []
  | made (d : Str) : Noted path [.madeDir d]
  | wrote (p text : Str) : path = some p → Noted path [.opened p, .wrote p text, .closed p]
  | madeWrote (d p text : Str) : path = some p → Noted path [.madeDir d, .opened p, .wrote p text, .closed p]

theorem Noted.open {path : Option Str} {es : List JobEvent} (h : Noted path es) (files : List Str) : openAfter files es = some files := by
  cases h <;> simp [openAfter]

theorem Noted.started {path : Option Str} {es : List JobEvent} (h : Noted path es) : Spec.started es = [] := by
  cases h <;> rfl

theorem writeSgf_spec (W : JobWorld σ) (st : JobSt σ) (path text : Str) :
    st.writeSgf W path text = (.ok (), { st with trace := st.trace ++ [.opened path, .wrote path text, .closed path] }) ∨ st.writeSgf W path text = (.error .other, st) := by
  unfold JobSt.writeSgf
  split
  · exact .inl rfl
  · exact .inr rfl

theorem recordGame_spec (W : JobWorld σ) (job : GameJob δ) (g : GtpGame σ Unit) (st : JobSt σ) :
    (recordGame W job g st = (.error .other, st)) ∨
    (recordGame W job g st = (.ok (), st) ∧ inDir job.sgfDirname job.sgfFilename = none) ∨
    ∃ p text, inDir job.sgfDirname job.sgfFilename = some p ∧
      recordGame W job g st = (.ok (), { st with trace := st.trace ++ [.opened p, .wrote p text, .closed p] }) := by
  unfold recordGame inDir
  cases job.sgfDirname with
  | none => exact .inr (.inl ⟨rfl, rfl⟩)
  | some dir =>
    cases job.sgfFilename with
    | none => exact .inr (.inl ⟨rfl, rfl⟩)
    | some file =>
      simp only
      cases jobSgf W job st.desc st.describeLate g none with
      | error e => exact .inl rfl
      | ok x =>
        obtain ⟨L, rec⟩ := x
        simp only
        cases L.serialise W.E rec (some 79) with
        | error e => exact .inl rfl
        | ok text =>
          simp only
          rcases writeSgf_spec W st (pathJoin dir file) text with h | h
          · exact .inr (.inr ⟨_, text, rfl, h⟩)
          · exact .inl h

theorem recordVoidGame_spec (W : JobWorld σ) (job : GameJob δ) (g : GtpGame σ Unit) (msg : Str) (st : JobSt σ) :
    (∃ es, (es = [] ∨ ∃ d, es = [JobEvent.madeDir d]) ∧ recordVoidGame W job g msg st = (.error .other, { st with trace := st.trace ++ es })) ∨
    (recordVoidGame W job g msg st = (.ok (), st) ∧ (g.runner.moves = [] ∨ inDir job.voidSgfDirname job.sgfFilename = none)) ∨
    ∃ d p text, g.runner.moves ≠ [] ∧ job.voidSgfDirname = some d ∧ inDir job.voidSgfDirname job.sgfFilename = some p ∧
      recordVoidGame W job g msg st = (.ok (), { st with trace := st.trace ++ [.madeDir d, .opened p, .wrote p text, .closed p] }) := by
  unfold recordVoidGame inDir
  split
  · rename_i h; exact .inr (.inl ⟨rfl, .inl h⟩)
  · rename_i hm
    cases job.voidSgfDirname with
    | none => exact .inr (.inl ⟨rfl, .inr rfl⟩)
    | some dir =>
      cases job.sgfFilename with
      | none => exact .inr (.inl ⟨rfl, .inr rfl⟩)
      | some file =>
        simp only
        split
        · exact .inl ⟨[], .inl rfl, by simp⟩
        · have key : ∃ es, (es = [] ∨ ∃ d, es = [JobEvent.madeDir d]) ∧
              ((.error .other, ({ st with trace := st.trace ++ [JobEvent.madeDir dir] } : JobSt σ)) : Except Stop Unit × JobSt σ) = (.error .other, { st with trace := st.trace ++ es }) :=
            ⟨[.madeDir dir], .inr ⟨dir, rfl⟩, rfl⟩
          split
          · exact .inl key
          · split
            · exact .inl key
            · split
              · exact .inl key
              · rename_i text _
                rcases writeSgf_spec W ({ st with trace := st.trace ++ [JobEvent.madeDir dir] } : JobSt σ) (pathJoin dir file) text with h | h
                · right; right
                  exact ⟨dir, _, text, hm, rfl, rfl, by rw [h]; simp⟩
                · left; rw [h]; exact key

/-! ### Running a job -/

/-- How a job can go, before closing the files. -/
inductive Ran (W : JobWorld σ) (job : GameJob δ) (workerId : Option Int) (fuel : Nat) : JobOut δ → JobSt σ → Prop
  | codes : (job.player .b).code = (job.player .w).code → Ran W job workerId fuel (.failed "error creating game: player codes must be distinct".toList) JobSt.init
  | crashed {cs : List Colour} {st : JobSt σ} : (job.player .b).code ≠ (job.player .w).code → cs <+: [.b, .w] → Going W job workerId cs st → Ran W job workerId fuel .crashed st
  | notStarted {cs : List Colour} {st : JobSt σ} {e : Str} {out : JobOut δ} {st' : JobSt σ} : (job.player .b).code ≠ (job.player .w).code → cs <+: [.b, .w] →
      Going W job workerId cs st → (EngineFails W job workerId .b e ∨ (∃ b d, EngineUp W job workerId .b b d) ∧ EngineFails W job workerId .w e) → abortJob W job e none st = (out, st') → Ran W job workerId fuel out st'
  | aborted {st : JobSt σ} {e : Str} {b w : Ctl σ} {db dw : Option EngineDesc} {g : GtpGame σ Unit} {out : JobOut δ} {st' : JobSt σ} :
      (job.player .b).code ≠ (job.player .w).code → Going W job workerId [.b, .w] st → EngineUp W job workerId .b b db → EngineUp W job workerId .w w dw →
      st.desc .b = db → st.desc .w = dw → playGame W job fuel (startedGame W job b w) = some (.error (.gtp e), g) →
      abortJob W job e (some g) (st.afterGame g) = (out, st') → Ran W job workerId fuel out st'
  | finished {st : JobSt σ} {b w : Ctl σ} {db dw : Option EngineDesc} {g : GtpGame σ Unit} {out : JobOut δ} {st' : JobSt σ} :
      (job.player .b).code ≠ (job.player .w).code → Going W job workerId [.b, .w] st → EngineUp W job workerId .b b db → EngineUp W job workerId .w w dw →
      st.desc .b = db → st.desc .w = dw → playGame W job fuel (startedGame W job b w) = some (.ok (), g) →
      finishJob W job g (st.afterGame g) = (out, st') → Ran W job workerId fuel out st'

theorem going_after {W : JobWorld σ} {job : GameJob δ} {workerId : Option Int} {st : JobSt σ} (h : Going W job workerId [.b, .w] st) (g : GtpGame σ Unit) :
    Going W job workerId [.b, .w] (st.afterGame g) :=
  ⟨h.files, h.written, h.started, fun c => by cases c <;> simp [JobSt.afterGame], h.late⟩

theorem jobMain_ran (W : JobWorld σ) (job : GameJob δ) (workerId : Option Int) (fuel : Nat) {out : JobOut δ} {st : JobSt σ}
    (h : jobMain W job workerId fuel JobSt.init = some (out, st)) : Ran W job workerId fuel out st := by
  unfold jobMain at h
  split at h
  · rename_i hc; injection h with h; injection h with h1 h2; subst h1; subst h2; exact .codes hc
  · rename_i hc
    cases ho : (JobSt.init : JobSt σ).openFile W job.gtpLogPathname with
    | mk r st1 =>
      obtain ⟨g1, -, c1, d1⟩ := going_openFile (going_init W job workerId) _ ho
      rw [ho] at h
      cases r with
      | error e => cases h; exact .crashed hc List.nil_prefix g1
      | ok u =>
        simp only at h
        cases hb : startPlayer W job workerId .b st1 with
        | mk r st2 =>
          rw [hb] at h
          rcases going_startPlayer g1 .b hb with ⟨g2, hne, hsame, hmsg⟩ | ⟨g2, hsame, chan, x, desc, hspawn, hset, hctl, hdesc⟩
          · cases r with
            | ok u => exact absurd rfl hne
            | error e =>
              cases e with
              | other => cases h; exact .crashed hc List.nil_prefix g2
              | gtp msg =>
                simp only at h
                injection h with h
                obtain ⟨m, hm, rfl⟩ := hmsg msg rfl
                exact .notStarted hc List.nil_prefix g2 (.inl (.spawn hm)) h
          · cases r with
            | error e =>
              cases e with
              | other => cases h; exact .crashed hc (by decide) g2
              | gtp msg =>
                simp only at h
                injection h with h
                exact .notStarted hc (by decide) g2 (.inl (.gtp hspawn hset)) h
            | ok u =>
              simp only at h
              have up : EngineUp W job workerId .b x desc := ⟨chan, hspawn, hset⟩
              cases hw : startPlayer W job workerId .w st2 with
              | mk r st3 =>
                rw [hw] at h
                rcases going_startPlayer g2 .w hw with ⟨g3, hne, hsame3, hmsg⟩ | ⟨g3, hsame3, chan', x', desc', hspawn', hset', hctl', hdesc'⟩
                · cases r with
                  | ok u => exact absurd rfl hne
                  | error e =>
                    cases e with
                    | other => cases h; exact .crashed hc (by decide) g3
                    | gtp msg =>
                      simp only at h
                      injection h with h
                      obtain ⟨m, hm, rfl⟩ := hmsg msg rfl
                      exact .notStarted hc (by decide) g3 (.inr ⟨⟨_, _, up⟩, .spawn hm⟩) h
                · cases r with
                  | error e =>
                    cases e with
                    | other => cases h; exact .crashed hc (by decide) g3
                    | gtp msg =>
                      simp only at h
                      injection h with h
                      exact .notStarted hc (by decide) g3 (.inr ⟨⟨_, _, up⟩, .gtp hspawn' hset'⟩) h
                  | ok u =>
                    have up' : EngineUp W job workerId .w x' desc' := ⟨chan', hspawn', hset'⟩
                    obtain ⟨hb3, hd3⟩ := hsame3 .b (by decide)
                    simp only [hctl', hb3, hctl] at h
                    rw [hdesc] at hd3
                    unfold playJob at h
                    cases hp : playGame W job fuel (startedGame W job x x') with
                    | none => rw [hp] at h; cases h
                    | some y =>
                      obtain ⟨r, g⟩ := y
                      simp only [hp] at h
                      cases r with
                      | ok u =>
                        simp only at h
                        injection h with h
                        exact .finished hc g3 up up' hd3 hdesc' hp h
                      | error e =>
                        cases e with
                        | other => cases h; exact .crashed hc (List.prefix_refl _) (going_after g3 g)
                        | gtp msg =>
                          simp only at h
                          injection h with h
                          exact .aborted hc g3 up up' hd3 hdesc' hp h

/-- Closing the files. -/
def JobSt.closeFiles (st : JobSt σ) : JobSt σ := { st with trace := st.trace ++ st.toClose.map .closed }

theorem runJob_ran (W : JobWorld σ) (job : GameJob δ) (workerId : Option Int) (fuel : Nat) {out : JobOut δ} {st : JobSt σ}
    (h : runJob W job workerId fuel = some (out, st)) : ∃ st0, st = st0.closeFiles ∧ Ran W job workerId fuel out st0 := by
  unfold runJob at h
  cases hm : jobMain W job workerId fuel JobSt.init with
  | none => rw [hm] at h; cases h
  | some x =>
    obtain ⟨out', st0⟩ := x
    simp only [hm] at h
    injection h with h
    injection h with h1 h2
    subst h1
    exact ⟨st0, h2.symm, jobMain_ran W job workerId fuel hm⟩

/-- How a job that was aborted ends. -/
theorem abortJob_spec (W : JobWorld σ) (job : GameJob δ) (e : Str) (og : Option (GtpGame σ Unit)) {st : JobSt σ} (hlate : st.late = []) {out : JobOut δ} {st' : JobSt σ}
    (h : abortJob W job e og st = (out, st')) :
    ∃ st1 es, SameJob st st1 ∧ st' = { st1 with trace := st1.trace ++ es } ∧ Noted (inDir job.voidSgfDirname job.sgfFilename) es ∧
      (Spec.written es ≠ [] → (∃ g, og = some g ∧ g.runner.moves ≠ []) ∧ out ≠ .crashed) ∧
      ((∃ g, og = some g ∧ g.runner.moves ≠ []) → out ≠ .crashed → ∀ p, inDir job.voidSgfDirname job.sgfFilename = some p → (Spec.written es).map Prod.fst = [p]) ∧
      (out = .crashed ∨ (∀ c x, st1.ctl c = some x → x.closed = true) ∧ 
        out = .failed ("aborting game due to error:\n".toList ++ e ++ (if Spec.lateErrors st1 = [] then [] else "\nalso:\n".toList ++ join ['\n'] (Spec.lateErrors st1)))) := by
  unfold abortJob at h
  obtain ⟨hs, hok⟩ := closePlayers_spec W st
  cases hc : st.closePlayers W with
  | mk r st1 =>
    rw [hc] at h hs hok
    cases r with
    | error x =>
      injection h with h1 h2
      subst h1; subst h2
      exact ⟨st1, [], hs, by simp, .nothing, (fun h => absurd rfl h), (fun _ h => absurd rfl h), .inl rfl⟩
    | ok u =>
      obtain ⟨hcl, hl⟩ := hok rfl
      rw [hlate, List.nil_append] at hl
      have hmsg : ∀ st2 : JobSt σ, st2.late = st1.late →
          (match st2.describeLate with
            | none => ((.failed ("aborting game due to error:\n".toList ++ e), st2) : JobOut δ × JobSt σ)
            | some l => (.failed ("aborting game due to error:\n".toList ++ e ++ "\nalso:\n".toList ++ l), st2)) =
          (.failed ("aborting game due to error:\n".toList ++ e ++ (if Spec.lateErrors st1 = [] then [] else "\nalso:\n".toList ++ join ['\n'] (Spec.lateErrors st1))), st2) := by
        intro st2 h2
        unfold JobSt.describeLate
        rw [h2, hl]
        show _ = (JobOut.failed ("aborting game due to error:\n".toList ++ e ++ (if Spec.lateErrors st1 = [] then [] else "\nalso:\n".toList ++ join ['\n'] (Spec.lateErrors st1))), st2)
        by_cases hn : Spec.lateErrors st1 = []
        · rw [if_pos hn, if_pos hn, List.append_nil]
        · rw [if_neg hn, if_neg hn]
          simp only [List.append_assoc]
      cases og with
      | none =>
        simp only at h
        replace h := (hmsg st1 rfl).symm.trans h
        injection h with h1 h2
        subst h1; subst h2
        exact ⟨st1, [], hs, by simp, .nothing, (fun h => absurd rfl h), (fun h => by obtain ⟨_, h, _⟩ := h; cases h), .inr ⟨hcl, rfl⟩⟩
      | some g =>
        simp only at h
        rcases recordVoidGame_spec W job g ("aborting game due to error:\n".toList ++ e) st1 with ⟨es, hes, hr⟩ | ⟨hr, hno⟩ | ⟨d, p, text, hm, hd, hp, hr⟩
        · rw [hr] at h
          injection h with h1 h2
          subst h1; subst h2
          refine ⟨st1, es, hs, rfl, ?_, ?_, (fun _ h => absurd rfl h), .inl rfl⟩
          · rcases hes with rfl | ⟨d, rfl⟩
            · exact .nothing
            · exact .made d
          · intro hw
            rcases hes with rfl | ⟨d, rfl⟩ <;> exact absurd rfl hw
        · rw [hr] at h
          simp only at h
          replace h := (hmsg st1 rfl).symm.trans h
          injection h with h1 h2
          subst h1; subst h2
          refine ⟨st1, [], hs, by simp, .nothing, (fun h => absurd rfl h), ?_, .inr ⟨hcl, rfl⟩⟩
          rintro ⟨g', hg', hmv⟩ - p hp
          cases hg'
          rcases hno with hno | hno
          · exact absurd hno hmv
          · rw [hno] at hp; cases hp
        · rw [hr] at h
          simp only at h
          replace h := (hmsg _ (by rfl)).symm.trans h
          injection h with h1 h2
          subst h1; subst h2
          refine ⟨st1, _, hs, rfl, .madeWrote d p text hp, fun _ => ⟨⟨g, rfl, hm⟩, (fun h => nomatch h)⟩, ?_, .inr ⟨hcl, rfl⟩⟩
          intro _ _ p' hp'
          rw [hp] at hp'
          cases hp'
          rfl

/-- How a job ends after a game. -/
theorem finishJob_spec (W : JobWorld σ) (job : GameJob δ) (g : GtpGame σ Unit) {st : JobSt σ} (hlate : st.late = []) {out : JobOut δ} {st' : JobSt σ}
    (h : finishJob W job g st = (out, st')) :
    ∃ st1 es, SameJob st st1 ∧ st' = { st1 with trace := st1.trace ++ es } ∧ Noted (inDir job.sgfDirname job.sgfFilename) es ∧
      (out = .crashed ∧ es = [] ∨ (∀ c x, st1.ctl c = some x → x.closed = true) ∧ (Spec.written es).map Prod.fst = (inDir job.sgfDirname job.sgfFilename).toList ∧
        ∃ r, g.result = some r ∧ out = .result {
          gameId := job.gameId
          gameData := job.gameData
          gameResult := withCpuTimes W st1 (g.cpuTimeErrors.getD []) r
          warnings := if r.res.isForfeit then r.res.detail.toList else []
          logEntries := if join ['\n'] (Spec.lateErrors st1) = [] then [] else [join ['\n'] (Spec.lateErrors st1)]
          engineDescriptions := [((job.player .b).code, st.desc .b), ((job.player .w).code, st.desc .w)] }) := by
  unfold finishJob at h
  cases hr : g.result with
  | none =>
    rw [hr] at h
    injection h with h1 h2
    subst h1; subst h2
    exact ⟨st, [], ⟨rfl, rfl, rfl, fun _ => rfl⟩, by simp, .nothing, .inl ⟨rfl, rfl⟩⟩
  | some r =>
    simp only [hr] at h
    obtain ⟨hs, hok⟩ := closePlayers_spec W st
    cases hc : st.closePlayers W with
    | mk x st1 =>
      rw [hc] at h hs hok
      cases x with
      | error x =>
        injection h with h1 h2
        subst h1; subst h2
        exact ⟨st1, [], hs, by simp, .nothing, .inl ⟨rfl, rfl⟩⟩
      | ok u =>
        obtain ⟨hcl, hl⟩ := hok rfl
        rw [hlate, List.nil_append] at hl
        simp only at h
        have hlog : ∀ st2 : JobSt σ, st2.late = st1.late →
            (match st2.describeLate with | none => [] | some [] => [] | some (c :: s) => [c :: s]) =
              (if join ['\n'] (Spec.lateErrors st1) = [] then [] else [join ['\n'] (Spec.lateErrors st1)]) := by
          intro st2 h2
          unfold JobSt.describeLate
          rw [h2, hl]
          by_cases hn : Spec.lateErrors st1 = []
          · rw [if_pos hn, hn]; rfl
          · rw [if_neg hn]
            cases join ['\n'] (Spec.lateErrors st1) with
            | nil => rfl
            | cons c s => rfl
        rcases recordGame_spec W job { g with result := some (withCpuTimes W st1 (g.cpuTimeErrors.getD []) r) } st1 with hrec | ⟨hrec, hno⟩ | ⟨p, text, hp, hrec⟩
        · rw [hrec] at h
          injection h with h1 h2
          subst h1; subst h2
          exact ⟨st1, [], hs, by simp, .nothing, .inl ⟨rfl, rfl⟩⟩
        · rw [hrec] at h
          injection h with h1 h2
          subst h1; subst h2
          refine ⟨st1, [], hs, by simp, .nothing, .inr ⟨hcl, by rw [hno]; rfl, r, rfl, ?_⟩⟩
          rw [← hs.desc, ← hlog st1 rfl]; rfl
        · rw [hrec] at h
          injection h with h1 h2
          subst h1; subst h2
          refine ⟨st1, _, hs, rfl, .wrote p text hp, .inr ⟨hcl, by rw [hp]; rfl, r, rfl, ?_⟩⟩
          rw [← hs.desc, ← hlog _ (by rfl)]; rfl

/-- After the job: the files, the processes, and what was written. -/
theorem ran_spec {W : JobWorld σ} {job : GameJob δ} {workerId : Option Int} {fuel : Nat} {out : JobOut δ} {st : JobSt σ} (h : Ran W job workerId fuel out st) :
    (∃ l, openAfter [] st.trace = some l ∧ l.Perm st.toClose) ∧
    (∃ cs, cs <+: [.b, .w] ∧ started st.trace = cs.map (fun c => (c, jobPopen W job workerId c)) ∧ ∀ c, (st.ctl c).isSome ↔ c ∈ cs) ∧
    (out ≠ .crashed → ∀ c x, st.ctl c = some x → x.closed = true) := by
  have noted : ∀ {cs : List Colour} {st0 st1 : JobSt σ} {path : Option Str} {es : List JobEvent}, Going W job workerId cs st0 → SameJob st0 st1 → Noted path es → cs <+: [.b, .w] →
      (∃ l, openAfter [] (st1.trace ++ es) = some l ∧ l.Perm st1.toClose) ∧
      (∃ cs, cs <+: [.b, .w] ∧ started (st1.trace ++ es) = cs.map (fun c => (c, jobPopen W job workerId c)) ∧ ∀ c, (st1.ctl c).isSome ↔ c ∈ cs) := by
    intro cs st0 st1 path es hg hs hn hp
    obtain ⟨⟨l, a1, a2⟩, _, a3, a4⟩ := going_close hg hs
    refine ⟨⟨l, ?_, a2⟩, cs, hp, ?_, a4⟩
    · rw [openAfter_append, a1]; exact hn.open l
    · rw [started_append, a3, hn.started, List.append_nil]
  cases h with
  | codes hc => exact ⟨⟨[], rfl, .refl _⟩, ⟨[], List.nil_prefix, rfl, fun c => by simp [JobSt.init]⟩, fun _ c x h => nomatch h⟩
  | crashed hc hp hg => exact ⟨hg.files, ⟨_, hp, hg.started, hg.ctl⟩, fun h => absurd rfl h⟩
  | notStarted hc hp hg ht ha =>
    obtain ⟨st1, es, h1, rfl, h2, _, _, h3⟩ := abortJob_spec W job _ _ hg.late ha
    obtain ⟨a, b⟩ := noted hg h1 h2 hp
    refine ⟨a, b, fun hne c x hx => ?_⟩
    rcases h3 with h3 | h3
    · exact absurd h3 hne
    · exact h3.1 c x hx
  | aborted hc hg _ _ _ _ _ ha =>
    have hg := going_after hg ‹GtpGame σ Unit›
    obtain ⟨st1, es, h1, rfl, h2, _, _, h3⟩ := abortJob_spec W job _ _ hg.late ha
    obtain ⟨a, b⟩ := noted hg h1 h2 (List.prefix_refl _)
    refine ⟨a, b, fun hne c x hx => ?_⟩
    rcases h3 with h3 | h3
    · exact absurd h3 hne
    · exact h3.1 c x hx
  | finished hc hg _ _ _ _ _ ha =>
    have hg := going_after hg ‹GtpGame σ Unit›
    obtain ⟨st1, es, h1, rfl, h2, h3⟩ := finishJob_spec W job _ hg.late ha
    obtain ⟨a, b⟩ := noted hg h1 h2 (List.prefix_refl _)
    refine ⟨a, b, fun hne c x hx => ?_⟩
    rcases h3 with h3 | h3
    · exact absurd h3.1 hne
    · exact h3.1 c x hx

/-- C70: however a job ends, and whatever the engines do, all files it has opened have been closed; it never writes to a file which isn't open, nor starts a process whose
standard error goes to a file which isn't open. -/
theorem C70_files (W : JobWorld σ) (job : GameJob δ) (workerId : Option Int) (fuel : Nat) {out : JobOut δ} {st : JobSt σ}
    (h : runJob W job workerId fuel = some (out, st)) : openAfter [] st.trace = some [] := by
  obtain ⟨st0, rfl, hr⟩ := runJob_ran W job workerId fuel h
  obtain ⟨⟨l, h1, h2⟩, _⟩ := ran_spec hr
  show openAfter [] (st0.trace ++ st0.toClose.map .closed) = _
  rw [openAfter_append, h1]
  exact openAfter_close _ _ h2

/-- C70: the black engine is started before the white one, each at most once, and in the way described in C70_process; when the job ends with a result or JobFailed, the channel of each
engine started has been closed. -/
theorem C70_engines (W : JobWorld σ) (job : GameJob δ) (workerId : Option Int) (fuel : Nat) {out : JobOut δ} {st : JobSt σ}
    (h : runJob W job workerId fuel = some (out, st)) :
    ∃ cs, cs <+: [.b, .w] ∧ started st.trace = cs.map (fun c => (c, jobPopen W job workerId c)) ∧ (∀ c, (st.ctl c).isSome ↔ c ∈ cs) ∧
      (out ≠ .crashed → ∀ c ∈ cs, ∃ x, st.ctl c = some x ∧ x.closed = true) := by
  obtain ⟨st0, rfl, hr⟩ := runJob_ran W job workerId fuel h
  obtain ⟨_, ⟨cs, h1, h2, h3⟩, h4⟩ := ran_spec hr
  refine ⟨cs, h1, ?_, h3, fun hne c hc => ?_⟩
  · show started (st0.trace ++ st0.toClose.map .closed) = _
    rw [started_append, started_closed, List.append_nil, h2]
  · obtain ⟨x, hx⟩ := Option.isSome_iff_exists.1 ((h3 c).2 hc)
    exact ⟨x, hx, h4 hne c x hx⟩

/-- C70: a job which returns a result has written one SGF file, to the directory for SGF files (or none, if there is no directory or filename). A job which fails has written nothing but
at most one SGF file, to the directory for void games, and it has only if there were moves. -/
theorem C70_written (W : JobWorld σ) (job : GameJob δ) (workerId : Option Int) (fuel : Nat) {out : JobOut δ} {st : JobSt σ}
    (h : runJob W job workerId fuel = some (out, st)) :
    (∀ r, out = .result r → (written st.trace).map Prod.fst = (inDir job.sgfDirname job.sgfFilename).toList) ∧
    (∀ msg, out = .failed msg → written st.trace = [] ∨ (written st.trace).map Prod.fst = (inDir job.voidSgfDirname job.sgfFilename).toList ∧
      ∃ b w d d' e g, EngineUp W job workerId .b b d ∧ EngineUp W job workerId .w w d' ∧ playGame W job fuel (startedGame W job b w) = some (.error (.gtp e), g) ∧ g.runner.moves ≠ []) ∧
    (∀ b w d d' e g, (job.player .b).code ≠ (job.player .w).code → EngineUp W job workerId .b b d → EngineUp W job workerId .w w d' →
      playGame W job fuel (startedGame W job b w) = some (.error (.gtp e), g) → g.runner.moves ≠ [] → out ≠ .crashed →
      (written st.trace).map Prod.fst = (inDir job.voidSgfDirname job.sgfFilename).toList) ∧
    (out = .crashed → written st.trace = []) := by
  obtain ⟨st0, rfl, hr⟩ := runJob_ran W job workerId fuel h
  have hclose : written st0.closeFiles.trace = written st0.trace := by
    show written (st0.trace ++ st0.toClose.map .closed) = _
    rw [written_append, written_closed, List.append_nil]
  rw [hclose]
  have hup : ∀ {c : Colour} {x y : Ctl σ} {d d' : Option EngineDesc}, EngineUp W job workerId c x d → EngineUp W job workerId c y d' → x = y ∧ d = d' := by
    rintro c x y d d' ⟨ch, h1, h2⟩ ⟨ch', h3, h4⟩
    rw [h1] at h3
    cases h3
    rw [h2] at h4
    injection h4 with _ h4
    injection h4 with h4 h5
    exact ⟨h5, h4⟩
  have nofail : ∀ {c : Colour} {x : Ctl σ} {d : Option EngineDesc} {e : Str}, EngineUp W job workerId c x d → ¬ EngineFails W job workerId c e := by
    rintro c x d e ⟨ch, h1, h2⟩ hf
    cases hf with
    | spawn h3 => rw [h1] at h3; cases h3
    | gtp h3 h4 =>
      rw [h1] at h3
      cases h3
      rw [h2] at h4
      exact nomatch congrArg Prod.fst h4
  cases hr with
  | codes hc => exact ⟨(fun _ h => nomatch h), fun _ _ => .inl rfl, fun _ _ _ _ _ _ hne => absurd hc hne, fun _ => rfl⟩
  | crashed hc hp hg => exact ⟨(fun _ h => nomatch h), (fun _ h => nomatch h), (fun _ _ _ _ _ _ _ _ _ _ _ h => absurd rfl h), fun _ => hg.written⟩
  | notStarted hc hp hg ht ha =>
    obtain ⟨st1, es, h1, rfl, h2, h3, _, h4⟩ := abortJob_spec W job _ _ hg.late ha
    have hes : written es = [] := by
      by_contra hne
      obtain ⟨⟨g, hg, _⟩, _⟩ := h3 hne
      cases hg
    have hw : written ({ st1 with trace := st1.trace ++ es } : JobSt σ).trace = [] := by
      show written (st1.trace ++ es) = []
      rw [written_append, hes, h1.trace, hg.written]
      rfl
    refine ⟨?_, fun _ _ => .inl hw, ?_, fun _ => hw⟩
    · rintro r rfl
      rcases h4 with h4 | h4
      · cases h4
      · cases h4.2
    · intro b w d d' e g _ hb hw' hpg hmv _
      exfalso
      rcases ht with ht | ⟨_, ht⟩
      · exact nofail hb ht
      · exact nofail hw' ht
  | aborted hc hg hb hw _ _ hp ha =>
    have hg := going_after hg ‹GtpGame σ Unit›
    obtain ⟨st1, es, h1, rfl, h2, h3, h4, h5⟩ := abortJob_spec W job _ _ hg.late ha
    have hwr : written ({ st1 with trace := st1.trace ++ es } : JobSt σ).trace = written es := by
      show written (st1.trace ++ es) = _
      rw [written_append, h1.trace, hg.written, List.nil_append]
    rw [hwr]
    have hpath : ∀ x ∈ written es, inDir job.voidSgfDirname job.sgfFilename = some x.1 := by
      intro x hx
      cases h2 with
      | nothing => cases hx
      | made d => cases hx
      | wrote p text hp => simp only [written, List.filterMap_cons, JobEvent.text, List.filterMap_nil, List.mem_singleton] at hx; rw [hx]; exact hp
      | madeWrote d p text hp => simp only [written, List.filterMap_cons, JobEvent.text, List.filterMap_nil, List.mem_singleton] at hx; rw [hx]; exact hp
    refine ⟨?_, ?_, ?_, ?_⟩
    · rintro r rfl
      rcases h5 with h5 | h5
      · cases h5
      · cases h5.2
    · rintro msg rfl
      by_cases he : written es = []
      · exact .inl he
      · obtain ⟨⟨g, hg', hmv⟩, _⟩ := h3 he
        cases hg'
        obtain ⟨x, hx⟩ := List.exists_mem_of_ne_nil _ he
        refine .inr ⟨?_, _, _, _, _, _, _, hb, hw, hp, hmv⟩
        rw [hpath x hx, h4 ⟨_, rfl, hmv⟩ (fun h => nomatch h) _ (hpath x hx)]
        rfl
    · intro b w d d' e g _ hb' hw' hp' hmv hne
      obtain ⟨rfl, rfl⟩ := hup hb hb'
      obtain ⟨rfl, rfl⟩ := hup hw hw'
      rw [hp] at hp'
      have := congrArg Prod.snd (Option.some.inj hp')
      simp only at this
      subst this
      cases hd : inDir job.voidSgfDirname job.sgfFilename with
      | none =>
        cases he : written es with
        | nil => rfl
        | cons x l =>
          have := hpath x (by rw [he]; simp)
          rw [hd] at this
          cases this
      | some p => exact h4 ⟨_, rfl, hmv⟩ hne p hd
    · rintro rfl
      by_contra he
      exact (h3 he).2 rfl
  | finished hc hg hb hw _ _ hp ha =>
    have hg := going_after hg ‹GtpGame σ Unit›
    obtain ⟨st1, es, h1, rfl, h2, h3⟩ := finishJob_spec W job _ hg.late ha
    have hwr : written ({ st1 with trace := st1.trace ++ es } : JobSt σ).trace = written es := by
      show written (st1.trace ++ es) = _
      rw [written_append, h1.trace, hg.written, List.nil_append]
    rw [hwr]
    refine ⟨?_, ?_, ?_, ?_⟩
    · rintro r rfl
      rcases h3 with h3 | h3
      · cases h3.1
      · exact h3.2.1
    · rintro msg rfl
      rcases h3 with h3 | h3
      · cases h3.1
      · obtain ⟨_, _, _, _, h3⟩ := h3; cases h3
    · intro b w d d' e g _ hb' hw' hp' hmv hne
      obtain ⟨rfl, rfl⟩ := hup hb hb'
      obtain ⟨rfl, rfl⟩ := hup hw hw'
      rw [hp] at hp'
      have := congrArg Prod.fst (Option.some.inj hp')
      cases this
    · rintro rfl
      rcases h3 with h3 | h3
      · rw [h3.2]; rfl
      · obtain ⟨_, _, _, _, h3⟩ := h3; cases h3

/-- C70: when a job fails. If the player codes are the same, nothing is done. Otherwise the message has the text of the error: an engine couldn't be started, or there was a GTP error before
or during the game; it also has the errors which were put aside, in order, if there were any. -/
theorem C70_failed (W : JobWorld σ) (job : GameJob δ) (workerId : Option Int) (fuel : Nat) {msg : Str} {st : JobSt σ}
    (h : runJob W job workerId fuel = some (.failed msg, st)) :
    ((job.player .b).code = (job.player .w).code ∧ st.trace = [] ∧ msg = "error creating game: player codes must be distinct".toList) ∨
    ((job.player .b).code ≠ (job.player .w).code ∧ ∃ e, Trouble W job workerId fuel e ∧
      msg = "aborting game due to error:\n".toList ++ e ++ (if Spec.lateErrors st = [] then [] else "\nalso:\n".toList ++ join ['\n'] (Spec.lateErrors st))) := by
  obtain ⟨st0, rfl, hr⟩ := runJob_ran W job workerId fuel h
  cases hr with
  | codes hc => exact .inl ⟨hc, rfl, rfl⟩
  | notStarted hc hp hg ht ha =>
    obtain ⟨st1, es, h1, rfl, h2, _, _, h3⟩ := abortJob_spec W job _ _ hg.late ha
    rcases h3 with h3 | h3
    · cases h3
    · injection h3.2 with h3
      refine .inr ⟨hc, _, ?_, h3⟩
      rcases ht with ht | ⟨⟨_, _, hb⟩, ht⟩
      · exact .black ht
      · exact .white hb ht
  | aborted hc hg hb hw _ _ hp ha =>
    have hg := going_after hg ‹GtpGame σ Unit›
    obtain ⟨st1, es, h1, rfl, h2, _, _, h3⟩ := abortJob_spec W job _ _ hg.late ha
    rcases h3 with h3 | h3
    · cases h3
    · injection h3.2 with h3
      exact .inr ⟨hc, _, .game hb hw hp, h3⟩
  | finished hc hg _ _ _ _ _ ha =>
    have hg := going_after hg ‹GtpGame σ Unit›
    obtain ⟨st1, es, h1, rfl, h2, h3⟩ := finishJob_spec W job _ hg.late ha
    rcases h3 with h3 | h3
    · cases h3.1
    · obtain ⟨_, _, r, _, h3⟩ := h3; cases h3

/-- The CPU times from resource usage. -/
theorem withCpuTimes_spec {code : Colour → Str} (hne : code .b ≠ code .w) {gameId : Option Str} {res : Res} {r : GameResult} (h : Counted code gameId res r) (W : JobWorld σ) (st : JobSt σ) (errors : List Colour) :
    Counted code gameId res (withCpuTimes W st errors r) ∧
    ∀ c, (withCpuTimes W st errors r).cpuTimes.lookup (code c) =
      some (cpuTimeOf ((r.cpuTimes.lookup (code c)).getD .none) (decide (c ∈ errors)) ((st.ctl c).bind (fun x => W.rusage x.chan))) := by
  let upd := fun (r : GameResult) (c : Colour) =>
    if c ∈ errors then r
    else match (st.ctl c).bind (fun x => W.rusage x.chan) with
      | none => r
      | some q => r.softUpdate1 c (.secs q)
  have step : ∀ (r : GameResult) (c : Colour), Counted code gameId res r → Counted code gameId res (upd r c) ∧
      (upd r c).cpuTimes.lookup (code c) = some (cpuTimeOf ((r.cpuTimes.lookup (code c)).getD .none) (decide (c ∈ errors)) ((st.ctl c).bind (fun x => W.rusage x.chan))) ∧
      (∀ k, k ≠ code c → (upd r c).cpuTimes.lookup k = r.cpuTimes.lookup k) := by
    intro r c hr
    simp only [upd]
    by_cases hc : c ∈ errors
    · rw [if_pos hc]
      refine ⟨hr, ?_, fun _ _ => rfl⟩
      rcases hr.time c with ht | ⟨q, ht⟩ <;> simp [ht, cpuTimeOf, hc]
    · rw [if_neg hc]
      cases hu : (st.ctl c).bind (fun x => W.rusage x.chan) with
      | none =>
        refine ⟨hr, ?_, fun _ _ => rfl⟩
        rcases hr.time c with ht | ⟨q, ht⟩ <;> simp [ht, cpuTimeOf]
      | some q' =>
        obtain ⟨u1, u2, u3⟩ := hr.update c q'
        refine ⟨u1, ?_, u3⟩
        simp only
        rw [u2]
        rcases hr.time c with ht | ⟨q, ht⟩ <;> simp [ht, cpuTimeOf, hc]
  obtain ⟨b1, b2, b3⟩ := step r .b h
  obtain ⟨w1, w2, w3⟩ := step (upd r .b) .w b1
  refine ⟨w1, ?_⟩
  intro c
  cases c with
  | b => exact (w3 _ hne).trans b2
  | w => rw [b3 _ (Ne.symm hne)] at w2; exact w2

/-- C70: when a job returns a result, both engines were started and a game was played. The result is that of the game, for these players and this game id. If it's a forfeit, the detail is a
warning. The errors which were put aside are in the log. A CPU time is the one the engine gave; or else, unless it gave an error, from the resource usage of the process. -/
theorem C70_result (W : JobWorld σ) (job : GameJob δ) (workerId : Option Int) (fuel : Nat) {r : GameJobResult δ} {st : JobSt σ}
    (h : runJob W job workerId fuel = some (.result r, st)) :
    (job.player .b).code ≠ (job.player .w).code ∧
    ∃ b w d d' g r0 errors rr, EngineUp W job workerId .b b d ∧ EngineUp W job workerId .w w d' ∧ playGame W job fuel (startedGame W job b w) = some (.ok (), g) ∧
      g.runner.result = some rr ∧ g.result = some r0 ∧ g.cpuTimeErrors = some errors ∧
      r.gameId = job.gameId ∧ r.gameData = job.gameData ∧
      r.engineDescriptions = [((job.player .b).code, d), ((job.player .w).code, d')] ∧
      r.warnings = (if rr.isForfeit then r.gameResult.res.detail.toList else []) ∧
      r.logEntries = (if join ['\n'] (Spec.lateErrors st) = [] then [] else [join ['\n'] (Spec.lateErrors st)]) ∧
      r.gameResult.gameId = some job.gameId ∧ r.gameResult.playerB = (job.player .b).code ∧ r.gameResult.playerW = (job.player .w).code ∧
      r.gameResult.res.winningColour = rr.winningColour ∧ r.gameResult.res.sgfResult = rr.sgfResult ∧ r.gameResult.res.isForfeit = rr.isForfeit ∧ r.gameResult.res.isJigo = rr.isJigo ∧
      r.gameResult.res = r0.res ∧
      ∀ c, ∃ t, r0.cpuTimes.lookup (job.player c).code = some t ∧ (t = .none ∨ ∃ q, t = .secs q) ∧
        r.gameResult.cpuTimes.lookup (job.player c).code = some (cpuTimeOf t (decide (c ∈ errors)) ((st.ctl c).bind (fun x => W.rusage x.chan))) := by
  obtain ⟨st0, rfl, hr⟩ := runJob_ran W job workerId fuel h
  cases hr with
  | notStarted hc hp hg ht ha =>
    obtain ⟨st1, es, h1, rfl, h2, h3, _, h4⟩ := abortJob_spec W job _ _ hg.late ha
    rcases h4 with h4 | h4
    · cases h4
    · cases h4.2
  | aborted hc hg hb hw _ _ hp ha =>
    have hg := going_after hg ‹GtpGame σ Unit›
    obtain ⟨st1, es, h1, rfl, h2, h3, h4, h5⟩ := abortJob_spec W job _ _ hg.late ha
    rcases h5 with h5 | h5
    · cases h5
    · cases h5.2
  | @finished st2 b w db dw g _ _ hc hg hb hw hdb hdw hp ha =>
    obtain ⟨st1, es, h1, rfl, h2, h3⟩ := finishJob_spec W job _ (going_after hg g).late ha
    rcases h3 with h3 | ⟨_, _, r0, hr0, h3⟩
    · cases h3.1
    · injection h3 with h3
      subst h3
      let f : Fixed := ⟨fun c => ((startedGame W job b w).runner.env.gc.ctl c).aliases, fun c => ((startedGame W job b w).runner.env.gc.ctl c).name, fun c => (job.player c).code⟩
      have hf : FixedT (fun _ => True) f := ⟨fun _ _ _ => trivial, fun _ => trivial, fun _ => trivial⟩
      obtain ⟨_, _, hres⟩ := playGame_texts W job allTexts (allChannel _) hf trivial (g := startedGame W job b w)
        ⟨⟨fun c => ⟨rfl, rfl, fun _ _ => trivial⟩, rfl⟩, fun _ _ => trivial⟩ rfl rfl hp
      obtain ⟨rr, errors, r1, e1, e2, e3, e4, e5⟩ := hres rfl
      rw [hr0] at e3
      cases e3
      obtain ⟨k1, k2⟩ := withCpuTimes_spec hc e5 W st1 errors
      refine ⟨hc, b, w, db, dw, g, r0, errors, rr, hb, hw, hp, e1, hr0, e4, rfl, rfl, ?_, ?_, rfl, ?_⟩
      · show [((job.player .b).code, st2.desc .b), ((job.player .w).code, st2.desc .w)] = _
        rw [hdb, hdw]
      · rw [e4]
        show (if r0.res.isForfeit then r0.res.detail.toList else []) = if rr.isForfeit then (withCpuTimes W st1 errors r0).res.detail.toList else []
        rw [k1.same, e5.same]
        rfl
      · rw [e4]
        show (withCpuTimes W st1 errors r0).gameId = _ ∧ (withCpuTimes W st1 errors r0).playerB = _ ∧ _
        refine ⟨k1.gameId, k1.black, k1.white, (by show (withCpuTimes W st1 errors r0).res.winningColour = _; rw [k1.same]; rfl), (by show (withCpuTimes W st1 errors r0).res.sgfResult = _; rw [k1.same]; rfl), (by show (withCpuTimes W st1 errors r0).res.isForfeit = _; rw [k1.same]; rfl), (by show (withCpuTimes W st1 errors r0).res.isJigo = _; rw [k1.same]; rfl), k1.same.trans e5.same.symm, ?_⟩
        intro c
        have hk := k2 c
        rcases e5.time c with ht | ⟨q, ht⟩
        · exact ⟨_, ht, .inl rfl, by rw [ht] at hk; exact hk⟩
        · exact ⟨_, ht, .inr ⟨q, rfl⟩, by rw [ht] at hk; exact hk⟩

/-- What a job returns: the description of the result, the warnings and the log entries; or the message. -/
def JobOut.summary : JobOut δ → List (List Str)
  | .result r => [[r.gameResult.describe], r.warnings, r.logEntries]
  | .failed msg => [[msg]]
  | .crashed => []

/-- C70: the game which a job plays: it has the job's settings, its players' codes and engines, its move limit and game id; it's prepared, the handicap is set up (if
it's impossible, the job fails with `invalid handicap`, having sent nothing more), and then it's run. -/
theorem C70_game (W : JobWorld σ) (job : GameJob δ) (fuel : Nat) (b w : Ctl σ) {r : Except Stop Unit} {g : GtpGame σ Unit}
    (h : playGame W job fuel (startedGame W job b w) = some (r, g)) :
    ∃ cfg g0, JobSettings W job cfg ∧ g0 = GtpGame.init cfg g0.runner.env.gc () (some job.moveLimit) (some job.gameId) ∧
      g0.runner.env.gc.ctl .b = b ∧ g0.runner.env.gc.ctl .w = w ∧ (∀ c, g0.runner.env.gc.code c = (job.player c).code) ∧
      g0.runner.env.gc.lateErrors = [] ∧ g0.runner.env.gc.cautious = false ∧ GameSteps W job cfg fuel g0 r g := by
  refine ⟨jobCfg W job, startedGame W job b w, ⟨rfl, rfl, rfl, fun _ => Iff.rfl, rfl, ?_, rfl, fun _ _ _ => rfl⟩, rfl, rfl, rfl, fun _ => rfl, rfl, rfl, ?_⟩
  · unfold jobCfg
    dsimp only
    cases job.useInternalScorer with
    | true => exact ⟨by simp, by simp⟩
    | false =>
      refine ⟨List.filter_sublist, fun c => ?_⟩
      simp only [Bool.false_eq_true, if_false, List.mem_filter, true_and]
      cases c <;> simp
  · have hsize : (startedGame W job b w).runner.boardSize = job.boardSize := rfl
    have hst : (startedGame W job b w).runner.state = 0 := rfl
    have hmv : (startedGame W job b w).runner.moves = [] := rfl
    generalize startedGame W job b w = g0 at *
    unfold playGame at h
    cases hp : g0.prepare (fun _ => W.channel) (jobCfg W job) with
    | mk x g1 =>
      rw [hp] at h
      cases x with
      | error e => cases h; exact .notPrepared hp
      | ok u =>
        have hr1 : g1.runner.state = 1 ∧ g1.runner.boardSize = job.boardSize ∧ g1.runner.moves = [] := by
          unfold GtpGame.prepare Runner.prepare at hp
          rw [if_neg (by simp [hst])] at hp
          cases hc : g0.runner.call (fun e => (gtpBackend (fun _ => W.channel) (jobCfg W job)).startNewGame g0.runner.boardSize g0.runner.komi e) with
          | mk y r1 =>
            have hc' : r1.boardSize = g0.runner.boardSize ∧ r1.moves = g0.runner.moves := by
              unfold Runner.call at hc
              injection hc with _ hc
              rw [← hc]
              exact ⟨rfl, rfl⟩
            rw [hc] at hp
            cases y with
            | error e => cases hp
            | ok v => cases hp; exact ⟨rfl, hc'.1.trans hsize, hc'.2.trans hmv⟩
        have hend : ∀ {y : Except Stop Unit} {g2 g3 : GtpGame σ Unit}, (match g2.run (fun _ => W.channel) (jobCfg W job) W.strFloat fuel with
              | none => none
              | some (.error e, g, _) => some (.error (e.toStop W.excText), g)
              | some (.ok (), g, _) => some (.ok (), g)) = some (y, g3) →
            ∃ z gm, g2.run (fun _ => W.channel) (jobCfg W job) W.strFloat fuel = some (z, g3, gm) ∧ y = z.mapError (fun e => e.toStop W.excText) := by
          intro y g2 g3 h
          split at h
          · cases h
          · rename_i e g gm hr; cases h; exact ⟨_, _, hr, rfl⟩
          · rename_i g gm hr; cases h; exact ⟨_, _, hr, rfl⟩
        simp only at h
        cases hk : job.handicap with
        | none =>
          rw [hk] at h
          obtain ⟨z, gm, h1, rfl⟩ := hend h
          exact .even hp (.inl hk) h1
        | some k =>
          rw [hk] at h
          simp only at h
          by_cases h0 : k = 0
          · rw [if_pos h0] at h
            subst h0
            obtain ⟨z, gm, h1, rfl⟩ := hend h
            exact .even hp (.inr hk) h1
          · rw [if_neg h0] at h
            by_cases hok : HandicapOK job.boardSize k job.handicapIsFree
            · cases hs : g1.setHandicap (fun _ => W.channel) (jobCfg W job) k job.handicapIsFree with
              | mk x g2 =>
                rw [hs] at h
                cases x with
                | ok v =>
                  obtain ⟨z, gm, h1, rfl⟩ := hend h
                  exact .handicap hp hk h0 hok hs h1
                | error e =>
                  by_cases he : e = .py .valueError
                  · subst he
                    cases h
                    exact .notSetUp hp hk h0 hok hs (.inl ⟨rfl, rfl⟩)
                  · have x : GameSteps W job (jobCfg W job) fuel g0 (.error (e.toStop W.excText)) g2 := .notSetUp hp hk h0 hok hs (.inr ⟨he, rfl⟩)
                    cases e with
                    | py y =>
                      cases y with
                      | valueError => exact absurd rfl he
                      | _ => cases h; exact x
                    | _ => cases h; exact x
            · have hbad := (C31_set_handicap (gtpBackend (fun _ => W.channel) (jobCfg W job))
                ({ g1.runner with env := { g1.runner.env with handicap := some k } } : Runner (GEnv σ Unit)) hr1.1 k job.handicapIsFree).1 (by rw [show Runner.boardSize _ = job.boardSize from hr1.2.1]; exact hok)
              have hs : g1.setHandicap (fun _ => W.channel) (jobCfg W job) k job.handicapIsFree =
                  (.error (.py .valueError), { g1 with runner := { g1.runner with env := { g1.runner.env with handicap := some k } } }) := by
                unfold GtpGame.setHandicap
                rw [hbad]
              rw [hs] at h
              cases h
              exact .impossible hp hk h0 hok hr1.2.2 rfl

/-- C70: non-vacuity: a game which ends with a forfeit; one which is aborted; an engine which can't be started; and players with the same code. -/
theorem C70_witness :
    (runJob (exampleWorld "Z9" "pass") exampleJob (some 3) 20).map (fun x => (x.1.summary, x.2.trace.take 4)) =
      some ([["two beat one W+F (forfeit by one: attempted ill-formed move Z9)".toList], ["forfeit by one: attempted ill-formed move Z9".toList],
          ["failure response from 'quit' to player one:\nnot now\nfailure response from 'quit' to player two:\nnot now".toList]],
        [.opened "err".toList,
         .spawned .b ⟨["b".toList], [("GOMILL_SLOT".toList, "3".toList), ("GOMILL_GAME_ID".toList, "g1".toList), ("PATH".toList, "/bin".toList)], none, some "err".toList⟩,
         .opened "/dev/null".toList,
         .spawned .w ⟨["w".toList], [("GOMILL_SLOT".toList, "3".toList), ("GOMILL_GAME_ID".toList, "g1".toList), ("PATH".toList, "/bin".toList)], none, some "/dev/null".toList⟩]) ∧
    (runJob (exampleWorld "B2" "!gone") exampleJob none 20).map (fun x => (x.1.summary, (x.2.trace.drop 4).map (fun e => e.text.isSome))) =
      some ([["aborting game due to error:\nchannel error\nalso:\nfailure response from 'quit' to player one:\nnot now".toList]], [false, false, true, false, false, false]) ∧
    (runJob (exampleWorld "B2" "pass") { exampleJob with player := fun c => { exampleJob.player c with cmdArgs := [] } } none 20).map (fun x => (x.1.summary, x.2.trace)) =
      some ([["aborting game due to error:\nerror starting subprocess for player one:\nNo such file".toList]], [.opened "err".toList, .closed "err".toList]) ∧
    (runJob (exampleWorld "B2" "pass") { exampleJob with player := fun _ => exampleJob.player .b } none 20).map (fun x => (x.1.summary, x.2.trace)) =
      some ([["error creating game: player codes must be distinct".toList]], []) := by
  refine ⟨by decide +kernel, by decide +kernel, by decide +kernel, by decide +kernel⟩

end Gomill.Gtp
