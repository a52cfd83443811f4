import Verif.Lemmas.JobTotal
/-
C71: a job always ends with a result or JobFailed, and the game is recorded.
-/
namespace Gomill.Gtp
open Py
open Gomill.Sgf
open Spec

variable {σ δ : Type} {W : JobWorld σ} {job : GameJob δ} {isFloat : Rat → Prop}

/-- The files of the job can be opened, and the directory for void games can be made. -/
structure CanWrite (W : JobWorld σ) (job : GameJob δ) : Prop where
  log : ∀ p, job.gtpLogPathname = some p → W.canOpen p = true
  stderr : ∀ c p, (if (job.player c).discardStderr then some "/dev/null".toList else job.stderrPathname) = some p → W.canOpen p = true
  sgf : ∀ p, inDir job.sgfDirname job.sgfFilename = some p → W.canOpen p = true
  void : ∀ p, inDir job.voidSgfDirname job.sgfFilename = some p → W.canOpen p = true
  voidDir : ∀ d, job.voidSgfDirname = some d → W.canMakeDir d = true

/-- A controller with tidy texts. -/
def TidyCtl (x : Ctl σ) : Prop := ∃ a name, NamesT a name ∧ CtlT Tidy a name x

theorem closePlayer_good (hC : TextChannel Tidy W.channel) (c : Colour) {st : JobSt σ} (h : ∀ c x, st.ctl c = some x → TidyCtl x) (hl : ∀ s ∈ st.late, Tidy s) :
    ∃ st', st.closePlayer W c = (.ok (), st') ∧ (∀ c x, st'.ctl c = some x → TidyCtl x) ∧ ∀ s ∈ st'.late, Tidy s := by
  unfold JobSt.closePlayer
  cases hx : st.ctl c with
  | none => exact ⟨st, rfl, h, hl⟩
  | some x =>
    obtain ⟨a, name, h1, h2⟩ := h c x hx
    obtain ⟨x', h3, _⟩ := safeClose_ok W.channel x (by rw [h2.aliases]; exact h1.word)
    have h4 := safeClose_T tidyClass hC h2 h1.name h1.tidy
    rw [h3] at h4
    simp only [h3]
    refine ⟨_, rfl, ?_, ?_⟩
    · intro d y hy
      simp only [JobSt.setCtl] at hy
      split at hy
      · cases hy; exact ⟨a, name, h1, h4.1⟩
      · exact h d y hy
    · intro s hs
      rcases List.mem_append.1 hs with hs | hs
      · exact hl s hs
      · exact h4.1.errors s hs

theorem closePlayers_good (hC : TextChannel Tidy W.channel) {st : JobSt σ} (h : ∀ c x, st.ctl c = some x → TidyCtl x) (hl : ∀ s ∈ st.late, Tidy s) :
    ∃ st', st.closePlayers W = (.ok (), st') ∧ ∀ s ∈ st'.late, Tidy s := by
  obtain ⟨st1, h1, h2, h3⟩ := closePlayer_good hC .b h hl
  obtain ⟨st2, h4, _, h5⟩ := closePlayer_good hC .w h2 h3
  unfold JobSt.closePlayers
  rw [h1]
  exact ⟨st2, h4, h5⟩

theorem closePlayers_any {st : JobSt σ} (h : ∀ c x, st.ctl c = some x → TidyCtl x) : ∃ st', st.closePlayers W = (.ok (), st') := by
  have key : ∀ (c : Colour) {st : JobSt σ}, (∀ x, st.ctl c = some x → TidyCtl x) → ∃ st', st.closePlayer W c = (.ok (), st') ∧ ∀ d, d ≠ c → st'.ctl d = st.ctl d := by
    intro c st h
    unfold JobSt.closePlayer
    cases hx : st.ctl c with
    | none => exact ⟨st, rfl, fun _ _ => rfl⟩
    | some x =>
      obtain ⟨a, name, h1, h2⟩ := h x hx
      obtain ⟨x', h3, _⟩ := safeClose_ok W.channel x (by rw [h2.aliases]; exact h1.word)
      simp only [h3]
      exact ⟨_, rfl, fun d hd => by simp [JobSt.setCtl, hd]⟩
  obtain ⟨st1, h1, h2⟩ := key .b (h .b)
  obtain ⟨st2, h3, _⟩ := key .w (st := st1) (by rw [h2 .w (by decide)]; exact h .w)
  unfold JobSt.closePlayers
  rw [h1]
  exact ⟨st2, h3⟩

theorem openFile_good {path : Option Str} (h : ∀ p, path = some p → W.canOpen p = true) (st : JobSt σ) :
    ∃ st', st.openFile W path = (.ok (), st') ∧ st'.ctl = st.ctl ∧ st'.desc = st.desc ∧ st'.late = st.late := by
  unfold JobSt.openFile
  cases path with
  | none => exact ⟨st, rfl, rfl, rfl, rfl⟩
  | some p => simp only [h p rfl, if_true]; exact ⟨_, rfl, rfl, rfl, rfl⟩

theorem startPlayer_good (h : GoodJob W job isFloat) (hc : CanWrite W job) (workerId : Option Int) (c : Colour) {st : JobSt σ} (hst : ∀ c x, st.ctl c = some x → TidyCtl x) :
    ∃ r st', startPlayer W job workerId c st = (r, st') ∧ r ≠ .error .other ∧ (∀ c x, st'.ctl c = some x → TidyCtl x) ∧ st'.late = st.late ∧
      (r = .ok () → ∃ x desc, EngineUp W job workerId c x (some desc) ∧ Up (job.player c).aliases ("player ".toList ++ (job.player c).code) x ∧ st'.ctl c = some x ∧ st'.desc c = some desc ∧
        (∀ s, desc.short = some s → utf8Valid s = true) ∧ (∀ s, desc.long = some s → Tidy s)) := by
  unfold startPlayer
  obtain ⟨st1, h1, h2, h3, h4⟩ := openFile_good (W := W) (path := stderrPath job (job.player c)) (hc.stderr c) st
  simp only [h1]
  cases hs : W.spawn (jobPopen W job workerId c) with
  | error msg => exact ⟨_, _, rfl, (fun h => nomatch h), by rw [h2]; exact hst, h4, (fun h => nomatch h)⟩
  | ok chan =>
    obtain ⟨r, d, x, a, e1, e2, e3, e4, e5⟩ := setUpPlayer_good W h.channel h.noBlank h.replaces (job.player c) (h.namesT c) (h.startup c) chan
    simp only [e1]
    refine ⟨_, _, rfl, e2, ?_, h4, ?_⟩
    · intro d y hy
      simp only [JobSt.setCtl] at hy
      split at hy
      · cases hy; exact ⟨a, _, e3, e4⟩
      · rw [h2] at hy; exact hst d y hy
    · rintro rfl
      obtain ⟨f1, desc, rfl, f2, f3⟩ := e5 rfl
      exact ⟨x, desc, ⟨chan, hs, e1⟩, f1, by simp [JobSt.setCtl], by simp, f2, f3⟩

/-- The engine descriptions. -/
def both (b w : EngineDesc) : Colour → EngineDesc
  | .b => b
  | .w => w

/-- The late errors, as one text. -/
def lateTexts (st : JobSt σ) : List Str := if Spec.lateErrors st = [] then [] else [join ['\n'] (Spec.lateErrors st)]

theorem recorded_good (h : GoodJob W job isFloat) {d : Colour → EngineDesc} (hd : ∀ c, (∀ s, (d c).short = some s → utf8Valid s = true) ∧ (∀ s, (d c).long = some s → Tidy s))
    {g : GtpGame σ Unit} (henv : EnvT Tidy (jobFixed job) g.runner.env) (hid : g.gameId = some job.gameId) (hrec : Recordable isFloat g.runner)
    (hha : ∀ k, g.runner.haProp = some k → 2 ≤ k) (hres : ∀ r, g.result = some r → Tidy r.describe ∧ Tidy r.playerB ∧ Tidy r.playerW) : Recorded W job d isFloat g where
  names := h.names
  utf8 := h.utf8
  floats := h.floats
  texts := ⟨h.gameId, h.code, h.event, h.name, h.note, fun c => (hd c).1, fun c => (hd c).2, h.now, fun q => (h.numbers q).2, h.version, h.date⟩
  runner := hrec
  result := by
    refine ⟨hres, ?_⟩
    intro f c s hf hs
    unfold GtpGame.playerScores at hf
    cases hg : g.runner.gameScore with
    | none => rw [hg] at hf; cases hf
    | some sc =>
      rw [hg] at hf
      cases hf
      have : (c, s) ∈ g.runner.env.scores := by
        replace hs : g.runner.env.scores.lookup c = some s := hs
        generalize g.runner.env.scores = l at hs
        induction l with
        | nil => cases hs
        | cons x l ih =>
          obtain ⟨a, b⟩ := x
          unfold List.lookup at hs
          split at hs
          · rename_i heq
            cases hs
            rw [beq_iff_eq] at heq
            rw [heq]
            exact List.mem_cons_self
          · exact List.mem_cons_of_mem _ (ih hs)
      exact henv.scores _ this
  handicap := hha
  gameId := hid
  codes := fun c => congrFun henv.gc.code c

/-- After a GTP error. -/
theorem abort_good (h : GoodJob W job isFloat) (hc : CanWrite W job) {e : Str} (he : Tidy e) {st : JobSt σ} (hst : ∀ c x, st.ctl c = some x → TidyCtl x) (hl : st.late = [])
    (g : Option (GtpGame σ Unit)) (d : Colour → EngineDesc) (hd : ∀ c, st.desc c = some (d c) ∨ g = none) (hg : ∀ g', g = some g' → g'.runner.moves ≠ [] → Recorded W job d isFloat g') :
    ∃ msg st', abortJob W job e g st = (.failed msg, st') ∧
      (∀ g' p, g = some g' → g'.runner.moves ≠ [] → inDir job.voidSgfDirname job.sgfFilename = some p → ∃ text, Spec.written st'.trace = Spec.written st.trace ++ [(p, text)] ∧
        FileHas W job d g' (some "Void".toList) (("aborting game due to error:\n".toList ++ e) :: lateTexts st') text) := by
  obtain ⟨st1, h1, h2⟩ := closePlayers_good h.channel hst (by rw [hl]; exact fun _ h => nomatch h)
  obtain ⟨hs, hok⟩ := closePlayers_spec W st
  rw [h1] at hs hok
  obtain ⟨_, hlate⟩ := hok rfl
  rw [hl, List.nil_append] at hlate
  simp only at hs hlate
  unfold abortJob
  simp only [h1]
  have fin : ∀ st' : JobSt σ, ∃ msg, (match st'.describeLate with
      | none => ((.failed ("aborting game due to error:\n".toList ++ e), st') : JobOut δ × JobSt σ)
      | some l => (.failed ("aborting game due to error:\n".toList ++ e ++ "\nalso:\n".toList ++ l), st')) = (.failed msg, st') := by
    intro st'
    cases st'.describeLate <;> exact ⟨_, rfl⟩
  cases g with
  | none =>
    obtain ⟨msg, hm⟩ := fin st1
    exact ⟨msg, st1, hm, (fun _ _ h => nomatch h)⟩
  | some g =>
    simp only
    by_cases hmv : g.runner.moves = []
    · have : recordVoidGame W job g ("aborting game due to error:\n".toList ++ e) st1 = (.ok (), st1) := by unfold recordVoidGame; rw [if_pos hmv]
      rw [this]
      obtain ⟨msg, hm⟩ := fin st1
      exact ⟨msg, st1, hm, (by rintro g' p ⟨⟩ hne; exact absurd hmv hne)⟩
    · have hd' : ∀ c, st1.desc c = some (d c) := by
        intro c
        rw [hs.desc]
        rcases hd c with hd | hd
        · exact hd
        · cases hd
      obtain ⟨r1, r2⟩ := C69_record_void_game W job d g ("aborting game due to error:\n".toList ++ e) st1 (hg g rfl hmv) hd' ((tidy_lit (by decide +kernel)).append he) h2
      cases hdir : job.voidSgfDirname with
      | none =>
        rw [r1 (.inr (.inl hdir))]
        obtain ⟨msg, hm⟩ := fin st1
        exact ⟨msg, st1, hm, by intro g' p _ _ hp; cases hp⟩
      | some dir =>
        cases hfile : job.sgfFilename with
        | none =>
          rw [r1 (.inr (.inr hfile))]
          obtain ⟨msg, hm⟩ := fin st1
          exact ⟨msg, st1, hm, by intro g' p _ _ hp; cases hp⟩
        | some file =>
          have hp : inDir job.voidSgfDirname job.sgfFilename = some (pathJoin dir file) := by rw [hdir, hfile]; rfl
          obtain ⟨text, t1, t2⟩ := (r2 dir file hmv hdir hfile).2.2 (hc.voidDir dir hdir) (hc.void _ hp)
          rw [t1]
          obtain ⟨msg, hm⟩ := fin { st1 with trace := st1.trace ++ [.madeDir dir, .opened (pathJoin dir file), .wrote (pathJoin dir file) text, .closed (pathJoin dir file)] }
          refine ⟨msg, _, hm, ?_⟩
          rintro g' p ⟨⟩ _ hp'
          cases hp'
          refine ⟨text, ?_, ?_⟩
          · show written (st1.trace ++ _) = _
            rw [written_append, hs.trace]
            rfl
          · rw [hlate] at t2
            exact t2

/-- After a game. -/
theorem finish_good (h : GoodJob W job isFloat) (hc : CanWrite W job) (hne : (job.player .b).code ≠ (job.player .w).code) {st : JobSt σ} (hst : ∀ c x, st.ctl c = some x → TidyCtl x) (hl : st.late = [])
    (g : GtpGame σ Unit) (d : Colour → EngineDesc) (hd : ∀ c, st.desc c = some (d c))
    (hdt : ∀ c, (∀ s, (d c).short = some s → utf8Valid s = true) ∧ (∀ s, (d c).long = some s → Tidy s))
    (henv : EnvT Tidy (jobFixed job) g.runner.env) (hid : g.gameId = some job.gameId) (hrec : Recordable isFloat g.runner)
    (hha : ∀ k, g.runner.haProp = some k → 2 ≤ k) {rr : Res} {errors : List Colour} {r : GameResult} (hdet : DetailOK Tidy (some rr)) (hsgf : Tidy rr.sgfResult) (hr : g.result = some r)
    (herr : g.cpuTimeErrors = some errors) (hcount : Counted (fun c => (job.player c).code) (some job.gameId) rr r) :
    ∃ r' st', finishJob W job g st = (.result r', st') ∧
      (∀ p, inDir job.sgfDirname job.sgfFilename = some p → ∃ text, Spec.written st'.trace = Spec.written st.trace ++ [(p, text)] ∧
        FileHas W job d { g with result := some r'.gameResult } (g.runner.result.map Res.sgfResult) (lateTexts st') text) := by
  obtain ⟨st1, h1, h2⟩ := closePlayers_good h.channel hst (by rw [hl]; exact fun _ h => nomatch h)
  obtain ⟨hs, hok⟩ := closePlayers_spec W st
  rw [h1] at hs hok
  obtain ⟨_, hlate⟩ := hok rfl
  rw [hl, List.nil_append] at hlate
  simp only at hs hlate
  unfold finishJob
  rw [hr]
  have he : g.cpuTimeErrors.getD [] = errors := by rw [herr]; rfl
  simp only [h1, he]
  obtain ⟨k1, _⟩ := withCpuTimes_spec hne hcount W st1 errors
  have hd' : ∀ c, st1.desc c = some (d c) := fun c => by rw [hs.desc]; exact hd c
  have hR : Recorded W job d isFloat ({ g with result := some (withCpuTimes W st1 errors r) } : GtpGame σ Unit) := by
    refine recorded_good h hdt henv hid hrec hha ?_
    rintro r' hr'
    cases hr'
    refine ⟨k1.tidy h.code hsgf hdet, ?_, ?_⟩
    · rw [k1.black]; exact h.code .b
    · rw [k1.white]; exact h.code .w
  obtain ⟨r1, r2⟩ := C69_record_game W job d _ st1 hR hd' h2
  cases hdir : job.sgfDirname with
  | none =>
    rw [r1 (.inl hdir)]
    exact ⟨_, _, rfl, by intro p hp; cases hp⟩
  | some dir =>
    cases hfile : job.sgfFilename with
    | none =>
      rw [r1 (.inr hfile)]
      exact ⟨_, _, rfl, by intro p hp; cases hp⟩
    | some file =>
      have hp : inDir job.sgfDirname job.sgfFilename = some (pathJoin dir file) := by rw [hdir, hfile]; rfl
      obtain ⟨text, t1, t2⟩ := (r2 dir file hdir hfile).2 (hc.sgf _ hp)
      rw [t1]
      refine ⟨_, _, rfl, ?_⟩
      intro p hp'
      cases hp'
      refine ⟨text, ?_, ?_⟩
      · show written (st1.trace ++ _) = _
        rw [written_append, hs.trace]
        rfl
      · rw [hlate] at t2
        exact t2

/-- What a job has done, when it ends with `out` and `st`. -/
structure JobDone (W : JobWorld σ) (job : GameJob δ) (workerId : Option Int) (fuel : Nat) (out : JobOut δ) (st : JobSt σ) : Prop where
  /-- The only way for it to end with an exception other than JobFailed. -/
  crashed : out = .crashed → ∃ b w d d' g, EngineUp W job workerId .b b d ∧ EngineUp W job workerId .w w d' ∧
    playGame W job fuel (startedGame W job b w) = some (.error .other, g) ∧ OddMargin W job g
  /-- If there's a result then the game was completed, and it's in the SGF file (if there's a filename and a directory). -/
  result : ∀ r, out = .result r → ∃ b w d d' g, EngineUp W job workerId .b b (some d) ∧ EngineUp W job workerId .w w (some d') ∧
    playGame W job fuel (startedGame W job b w) = some (.ok (), g) ∧
    (∀ p, inDir job.sgfDirname job.sgfFilename = some p → ∃ text, written st.trace = [(p, text)] ∧
      FileHas W job (both d d') { g with result := some r.gameResult } (g.runner.result.map Res.sgfResult) (lateTexts st) text)
  /-- If the game was completed, there's a result. -/
  completed : ∀ b w d d' g, (job.player .b).code ≠ (job.player .w).code → EngineUp W job workerId .b b d → EngineUp W job workerId .w w d' →
    playGame W job fuel (startedGame W job b w) = some (.ok (), g) → ∃ r, out = .result r
  /-- If the game was stopped by a GTP error, there's JobFailed; and if there were any moves they are in the file for void games (if there's a filename and a directory). -/
  stopped : ∀ b w d d' e g, (job.player .b).code ≠ (job.player .w).code → EngineUp W job workerId .b b (some d) → EngineUp W job workerId .w w (some d') →
    playGame W job fuel (startedGame W job b w) = some (.error (.gtp e), g) →
    (∃ msg, out = .failed msg) ∧ (g.runner.moves ≠ [] →
      ∀ p, inDir job.voidSgfDirname job.sgfFilename = some p → ∃ text, written st.trace = [(p, text)] ∧
        FileHas W job (both d d') g (some "Void".toList) (("aborting game due to error:\n".toList ++ e) :: lateTexts st) text)

/-- C71: a job whose texts are UTF-8 without carriage returns, as are all texts from the engines, and whose files can be opened, always ends, whatever the engines do (with a move limit): with a result, or with
JobFailed, unless both engines were started and an engine said that the margin was an infinity or a NaN. If there's a filename then a completed game has been written to a file in the directory for SGF files;
and a game stopped by a GTP error has been written to a file in the directory for void games if there were any moves. Either file can be loaded, and contains the record of the game, with the result, or 'Void'
(and the error). -/
theorem C71_total (h : GoodJob W job isFloat) (hc : CanWrite W job) (workerId : Option Int) (fuel : Nat) (hf : max job.moveLimit.toNat 1 ≤ fuel) :
    ∃ out st, runJob W job workerId fuel = some (out, st) ∧ JobDone W job workerId fuel out st := by
  have up_eq : ∀ {c : Colour} {x y : Ctl σ} {d d' : Option EngineDesc}, EngineUp W job workerId c x d → EngineUp W job workerId c y d' → x = y ∧ d = d' := by
    rintro c x y d d' ⟨ch, h1, h2⟩ ⟨ch', h3, h4⟩
    rw [h1] at h3
    cases h3
    rw [h2] at h4
    injection h4 with _ h4
    injection h4 with h4 h5
    exact ⟨h5, h4⟩
  have nofail : ∀ {c : Colour} {x : Ctl σ} {d : Option EngineDesc} {e : Str}, EngineUp W job workerId c x d → ¬ EngineFails W job workerId c e := by
    rintro c x d e ⟨ch, h1, h2⟩ hf
    cases hf with
    | spawn h3 => rw [h1] at h3; cases h3
    | gtp h3 h4 =>
      rw [h1] at h3
      cases h3
      rw [h2] at h4
      exact nomatch congrArg Prod.fst h4
  have hwr : ∀ st : JobSt σ, written ({ st with trace := st.trace ++ st.toClose.map .closed } : JobSt σ).trace = written st.trace := by
    intro st
    show written (st.trace ++ st.toClose.map .closed) = _
    rw [written_append, written_closed, List.append_nil]
  have hlt : ∀ st : JobSt σ, lateTexts ({ st with trace := st.trace ++ st.toClose.map .closed } : JobSt σ) = lateTexts st := fun _ => rfl
  -- before both engines have been started
  have early : ∀ {msg : Str} {st : JobSt σ}, jobMain W job workerId fuel JobSt.init = some (.failed msg, st) →
      (∀ b w d d', (job.player .b).code ≠ (job.player .w).code → EngineUp W job workerId .b b d → EngineUp W job workerId .w w d' → False) → 
      ∃ out st, runJob W job workerId fuel = some (out, st) ∧ JobDone W job workerId fuel out st := by
    intro msg st hm hno
    refine ⟨.failed msg, { st with trace := st.trace ++ st.toClose.map .closed }, ?_, (fun h => nomatch h), (fun _ h => nomatch h), fun b w d d' g h1 h2 h3 => (hno _ _ _ _ h1 h2 h3).elim,
      fun b w d d' e g h1 h2 h3 => (hno _ _ _ _ h1 h2 h3).elim⟩
    unfold runJob; rw [hm]
  by_cases hne : (job.player .b).code = (job.player .w).code
  · exact early (by unfold jobMain; rw [if_pos hne]) (fun _ _ _ _ h => absurd hne h)
  · obtain ⟨st1, o1, o2, o3, o4⟩ := openFile_good (W := W) hc.log (JobSt.init : JobSt σ)
    obtain ⟨go1, _⟩ := going_openFile (going_init W job workerId) _ o1
    have t1 : ∀ c x, st1.ctl c = some x → TidyCtl x := by rw [o2]; exact fun _ _ h => nomatch h
    obtain ⟨rb, st2, b1, b2, b3, b4, b5⟩ := startPlayer_good h hc workerId .b t1
    have hmain := jobMain.eq_1 W job workerId fuel (JobSt.init : JobSt σ)
    rw [if_neg hne, o1] at hmain
    simp only [b1] at hmain
    have close_any : ∀ {st : JobSt σ}, (∀ c x, st.ctl c = some x → TidyCtl x) → ∃ st', st.closePlayers W = (.ok (), st') := by
      intro st hst
      exact closePlayers_any hst
    have abort_none : ∀ {st : JobSt σ} {e : Str}, (∀ c x, st.ctl c = some x → TidyCtl x) → ∃ msg st', abortJob W job e none st = (.failed msg, st') := by
      intro st e hst
      obtain ⟨st', a1⟩ := close_any hst
      unfold abortJob
      simp only [a1]
      cases st'.describeLate <;> exact ⟨_, _, rfl⟩
    cases rb with
    | error e =>
      cases e with
      | other => exact absurd rfl b2
      | gtp e =>
        obtain ⟨msg, st', a1⟩ := abort_none b3 (e := e)
        refine early (msg := msg) (st := st') (by rw [hmain]; simp only [a1]) ?_
        intro b w d d' _ hb _
        refine nofail (e := e) hb ?_
        rcases going_startPlayer go1 .b b1 with ⟨_, _, _, hm⟩ | ⟨_, _, chan, x, desc, hs, hset, _⟩
        · obtain ⟨m, hm1, rfl⟩ := hm e rfl
          exact .spawn hm1
        · exact .gtp hs hset
    | ok u =>
      obtain ⟨b, db, ub, hb, cb, eb, tb⟩ := b5 rfl
      have go2 : Going W job workerId [.b] st2 := by
        rcases going_startPlayer go1 .b b1 with ⟨_, hx, _⟩ | ⟨hx, _⟩
        · exact absurd rfl hx
        · exact hx
      obtain ⟨rw', st3, w1, w2, w3, w4, w5⟩ := startPlayer_good h hc workerId .w b3
      simp only [w1] at hmain
      cases rw' with
      | error e =>
        cases e with
        | other => exact absurd rfl w2
        | gtp e =>
          obtain ⟨msg, st', a1⟩ := abort_none w3 (e := e)
          refine early (msg := msg) (st := st') (by rw [hmain]; simp only [a1]) ?_
          intro b w d d' _ _ hw
          refine nofail (e := e) hw ?_
          rcases going_startPlayer go2 .w w1 with ⟨_, _, _, hm⟩ | ⟨_, _, chan, x, desc, hs, hset, _⟩
          · obtain ⟨m, hm1, rfl⟩ := hm e rfl
            exact .spawn hm1
          · exact .gtp hs hset
      | ok u =>
        obtain ⟨w, dw, uw, hw, cw, ew, tw⟩ := w5 rfl
        obtain ⟨go3, hsame⟩ : Going W job workerId [.b, .w] st3 ∧ (∀ d, d ≠ .w → st3.ctl d = st2.ctl d ∧ st3.desc d = st2.desc d) := by
          rcases going_startPlayer go2 .w w1 with ⟨_, hx, _⟩ | ⟨hx, hx', _⟩
          · exact absurd rfl hx
          · exact ⟨hx, hx'⟩
        have cb3 : st3.ctl .b = some b := by rw [(hsame .b (by decide)).1]; exact cb
        have eb3 : st3.desc .b = some db := by rw [(hsame .b (by decide)).2]; exact eb
        simp only [cb3, cw] at hmain
        obtain ⟨x, g, p1, p2, p3, p4, p5, p6, p7, p8⟩ := playGame_good h hb hw hf
        unfold playJob at hmain
        rw [p1] at hmain
        have hdesc : ∀ c, (st3.afterGame g).desc c = some (both db dw c) := by
          intro c
          cases c
          · exact eb3
          · exact ew
        have hdt : ∀ c, (∀ s, (both db dw c).short = some s → utf8Valid s = true) ∧ (∀ s, (both db dw c).long = some s → Tidy s) := by
          intro c
          cases c
          · exact tb
          · exact tw
        have hctl : ∀ c x, (st3.afterGame g).ctl c = some x → TidyCtl x := by
          intro c x hx
          cases hx
          exact ⟨_, _, h.namesT c, p2.gc.ctl c⟩
        have go4 := going_after go3 g
        have same : ∀ {b' w' d d' x' g'}, EngineUp W job workerId .b b' d → EngineUp W job workerId .w w' d' →
            playGame W job fuel (startedGame W job b' w') = some (x', g') → d = some db ∧ d' = some dw ∧ x' = x ∧ g' = g := by
          intro b' w' d d' x' g' hb' hw' hp'
          obtain ⟨rfl, hd1⟩ := up_eq ub hb'
          obtain ⟨rfl, hd2⟩ := up_eq uw hw'
          rw [p1] at hp'
          exact ⟨hd1.symm, hd2.symm, (congrArg Prod.fst (Option.some.inj hp')).symm, (congrArg Prod.snd (Option.some.inj hp')).symm⟩
        cases x with
        | error e =>
          cases e with
          | other =>
            exact ⟨.crashed, _, by unfold runJob; rw [hmain], fun _ => ⟨b, w, _, _, g, ub, uw, p1, p5 rfl⟩, (fun _ h => nomatch h),
              fun _ _ _ _ _ _ h1 h2 h3 => (nomatch (same h1 h2 h3).2.2.1), fun _ _ _ _ _ _ _ h1 h2 h3 => (nomatch (same h1 h2 h3).2.2.1)⟩
          | gtp e =>
            simp only at hmain
            obtain ⟨msg, st', a1, a2⟩ := abort_good h hc (p4 e rfl).1 hctl go4.late (some g) (both db dw) (fun c => .inl (hdesc c)) (by
              rintro g' ⟨⟩ hmv
              refine recorded_good h hdt p2 p3 (p6 (.inr hmv)) p7 ?_
              intro r hr
              rw [(p4 e rfl).2] at hr
              cases hr)
            rw [a1] at hmain
            refine ⟨.failed msg, _, by unfold runJob; rw [hmain], (fun h => nomatch h), (fun _ h => nomatch h),
              fun _ _ _ _ _ _ h1 h2 h3 => (nomatch (same h1 h2 h3).2.2.1), ?_⟩
            intro b' w' d d' e' g' _ hb' hw' hp'
            obtain ⟨hd1, hd2, e1, rfl⟩ := same hb' hw' hp'
            cases hd1
            cases hd2
            cases e1
            refine ⟨⟨msg, rfl⟩, fun hmv p hp => ?_⟩
            obtain ⟨text, t1, t2⟩ := a2 _ p rfl hmv hp
            refine ⟨text, ?_, ?_⟩
            · rw [hwr, t1, go4.written]; rfl
            · rw [hlt]; exact t2
        | ok u =>
          simp only at hmain
          obtain ⟨rr, errors, r, q1, q2, q3, q4, q5, q6⟩ := p8 rfl
          obtain ⟨r', st', a1, a2⟩ := finish_good h hc hne hctl go4.late g (both db dw) hdesc hdt p2 p3 (p6 (.inl rfl)) p7 q2 q3 q4 q5 q6
          rw [a1] at hmain
          refine ⟨.result r', _, by unfold runJob; rw [hmain], (fun h => nomatch h), ?_, fun _ _ _ _ _ _ _ _ _ => ⟨r', rfl⟩,
            fun _ _ _ _ _ _ _ h1 h2 h3 => (nomatch (same h1 h2 h3).2.2.1)⟩
          rintro r'' hr''
          cases hr''
          refine ⟨b, w, db, dw, g, ub, uw, p1, fun p hp => ?_⟩
          obtain ⟨text, t1, t2⟩ := a2 p hp
          refine ⟨text, ?_, ?_⟩
          · rw [hwr, t1, go4.written]; rfl
          · rw [hlt]; exact t2

/-! ### Examples -/

/-- A response which is UTF-8, without carriage returns or whitespace at the end. -/
def neat (s : Str) : Bool := utf8Valid s && !s.contains '\r' && !(s.getLast?.map isSpace).getD false

/-- Any other response becomes an empty one. -/
def neaten (s : Str) : Str := if neat s then s else []

/-- A channel with neat responses. -/
def neatChannel (C : Channel σ) : Channel σ where
  send := fun command args s => match C.send command args s with
    | (.error e, s) => (.error { e with msg := neaten e.msg }, s)
    | (.ok u, s) => (.ok u, s)
  recv := fun s => match C.recv s with
    | (.error e, s) => (.error { e with msg := neaten e.msg }, s)
    | (.ok (f, r), s) => (.ok (f, neaten r), s)
  close := fun s => ((C.close s).1.map neaten, (C.close s).2)

/-- A world with neat engines. -/
def neatWorld (b w : List (Str × Str)) : JobWorld Table :=
  { exampleWorld "" "" with
    channel := neatChannel tableChannel
    spawn := fun p => if p.args = ["b".toList] then .ok (b, none) else if p.args = ["w".toList] then .ok (w, none) else .error "No such file".toList
    float := fun s => if s = "INF".toList then some .inf else if s = "2".toList then some (.fin 2) else none }

theorem neaten_tidy (s : Str) : Tidy (neaten s) := by
  unfold neaten
  split
  · rename_i h
    unfold neat at h
    simp only [Bool.and_eq_true, Bool.not_eq_true', List.contains_eq_mem, decide_eq_false_iff_not] at h
    exact ⟨h.1.1, h.1.2⟩
  · exact ⟨by decide +kernel, by decide +kernel⟩

theorem neaten_noBlank (s : Str) (c : Char) (h : (neaten s).getLast? = some c) : isSpace c = false := by
  unfold neaten at h
  split at h
  · rename_i hn
    unfold neat at hn
    rw [h] at hn
    simp only [Bool.and_eq_true, Bool.not_eq_true', Option.map_some, Option.getD_some] at hn
    exact hn.2
  · cases h

theorem neat_channel (C : Channel σ) : TextChannel Tidy (neatChannel C) where
  send := by
    intro command args s e h
    unfold neatChannel at h
    simp only at h
    split at h
    · cases h; exact neaten_tidy _
    · cases h
  recvError := by
    intro s e h
    unfold neatChannel at h
    simp only at h
    split at h
    · cases h; exact neaten_tidy _
    · cases h
  recv := by
    intro s f r h
    unfold neatChannel at h
    simp only at h
    split at h
    · cases h
    · cases h; exact neaten_tidy _
  close := by
    intro s m h
    unfold neatChannel at h
    simp only at h
    cases hc : (C.close s).1 with
    | none => rw [hc] at h; cases h
    | some x => rw [hc] at h; cases h; exact neaten_tidy _

/-- The assumptions hold, whatever the engines do. -/
theorem neat_job (b w : List (Str × Str)) (scorer : Bool) : GoodJob (neatWorld b w) { exampleJob with useInternalScorer := scorer } exampleIsFloat where
  channel := neat_channel tableChannel
  noBlank := by
    rintro r c ⟨s, f, hr⟩ hc
    change ((neatChannel tableChannel).recv s).1 = _ at hr
    unfold neatChannel at hr
    simp only at hr
    split at hr
    · cases hr
    · cases hr; exact neaten_noBlank _ _ hc
  replaces := C68_witness.1
  size := show 2 ≤ 3 ∧ 3 ≤ 25 by decide
  komi := show exampleIsFloat (13/2) from Or.inr (Or.inl (by decide +kernel))
  komiWord := show isWellFormedWord "6.5".toList = true by decide +kernel
  numbers := by
    intro q
    refine ⟨show Tidy "6.5".toList from tidy_lit (by decide +kernel), ?_⟩
    show Tidy (if q = 5 then "5.00".toList else "0.50".toList)
    split
    · exact show Tidy "5.00".toList from tidy_lit (by decide +kernel)
    · exact show Tidy "0.50".toList from tidy_lit (by decide +kernel)
  excs := by
    rintro k (rfl | rfl)
    · exact show Tidy "failure response".toList from tidy_lit (by decide +kernel)
    · exact show Tidy "channel error".toList from tidy_lit (by decide +kernel)
  names := exampleNames
  utf8 := ⟨show exampleEncodings.normalise "UTF-8".toList = some "UTF-8".toList by decide +kernel, rfl⟩
  floats := exampleFloats_ok
  code := by
    intro c
    cases c
    · exact show Tidy "one".toList from tidy_lit (by decide +kernel)
    · exact show Tidy "two".toList from tidy_lit (by decide +kernel)
  aliases := by intro c kv h; cases c <;> cases h
  startup := by intro c kv h; cases c <;> cases h
  gameId := show Tidy "g1".toList from tidy_lit (by decide +kernel)
  event := by intro s h; cases h; exact show Tidy "test".toList from tidy_lit (by decide +kernel)
  name := fun s h => nomatch h
  note := fun s h => nomatch h
  now := show Tidy "2012-01-01 10:00".toList from tidy_lit (by decide +kernel)
  version := show utf8Valid "0.8".toList = true by decide +kernel
  date := show utf8Valid "2012-01-01".toList = true by decide +kernel

/-- How a job ended, and the files it wrote. -/
def summaryOf (x : Option (JobOut Nat × JobSt Table)) : Option (Str × List Str) :=
  x.map (fun x => ((match x.1 with | .crashed => "crashed".toList | .failed m => m | .result r => r.gameResult.describe), (written x.2.trace).map Prod.fst))

/-- Some pairs of engines: `extra` are further responses. -/
def exampleJobRun (b w : String) (extra : List (Str × Str)) (scorer : Bool) : Option (Str × List Str) :=
  summaryOf (runJob (neatWorld (extra ++ simpleEngine b) (extra ++ simpleEngine w)) { exampleJob with useInternalScorer := scorer } none 20)

/-- C71: non-vacuity: the assumptions hold for some engines (whatever their responses); and jobs with a result, with a GTP error, and with a strange score. -/
theorem C71_witness :
    (∀ b w scorer, GoodJob (neatWorld b w) { exampleJob with useInternalScorer := scorer } exampleIsFloat ∧ CanWrite (neatWorld b w) { exampleJob with useInternalScorer := scorer }) ∧
    exampleJobRun "B2" "resign" [] true = some ("one beat two B+R".toList, ["games/g1.sgf".toList]) ∧
    exampleJobRun "B2" "!gone" [] true =
      some ("aborting game due to error:\nchannel error\nalso:\nfailure response from 'quit' to player one:\nnot now".toList, ["void/g1.sgf".toList]) ∧
    exampleJobRun "pass" "pass" [("final_score".toList, "B+2".toList)] false = some ("one beat two B+2".toList, ["games/g1.sgf".toList]) ∧
    exampleJobRun "pass" "pass" [("final_score".toList, "B+inf".toList)] false = some ("crashed".toList, []) :=
  ⟨fun b w scorer => ⟨neat_job b w scorer, ⟨fun _ _ => rfl, fun _ _ _ => rfl, fun _ _ => rfl, fun _ _ => rfl, fun _ _ => rfl⟩⟩,
    by decide +kernel, by decide +kernel, by decide +kernel, by decide +kernel⟩

end Gomill.Gtp
