import Verif.Spec.PlayerCheck
import Verif.Props.GameJobSgf
import Verif.Props.GtpGame
/-
C72: check_player.
-/
namespace Gomill.Gtp
open Py
open Spec

variable {σ : Type}

/-- A controller before any trouble. -/
structure Calm (a : List (Str × Str)) (name : Str) (c : Ctl σ) : Prop where
  opened : c.closed = false
  good : c.bad = false
  none : c.errors = []
  aliases : c.aliases = a
  name : c.name = name

/-- What do_command does, in terms of the exchange. -/
theorem doCommand_exchange (C : Channel σ) {a : List (Str × Str)} {name : Str} {c : Ctl σ} (h : Calm a name c) (x : Cmd)
    (hw : isWellFormedWord (aliased a x).1 = true ∧ ∀ y ∈ x.2, isWellFormedWord y = true) {o : Except ChErr (Bool × Str)} {s : σ}
    (hx : exchange C (aliased a x) c.chan = (o, s)) :
    (∀ r, o = .ok (false, r) → ∃ c', c.doCommand C x.1 x.2 = (.ok r, c') ∧ Calm a name c' ∧ c'.chan = s) ∧
    (∀ r, o = .ok (true, r) → ∃ c' msg, c.doCommand C x.1 x.2 = (.error (.badResponse msg (some r)), c') ∧ Calm a name c' ∧ c'.chan = s ∧ r <:+ msg) ∧
    (∀ e, o = .error e → ∃ c' msg, c.doCommand C x.1 x.2 = (.error (.channel ⟨e.kind, msg⟩), c') ∧ c'.chan = s ∧ e.msg <:+ msg ∧ c'.errors = [] ∧ c'.bad = true) := by
  have ht : (aliased a x).1 = (c.aliases.lookup x.1).getD x.1 := by rw [h.aliases]; rfl
  obtain ⟨d1, d2, d3, d4⟩ := C57_do_command C c x.1 x.2 h.opened ⟨by rw [show c.translate x.1 = (aliased a x).1 from ht.symm]; exact hw.1, hw.2⟩
  rw [← ht] at d1 d2 d3 d4
  have calm : ∀ s, Calm a name ({ c with chan := s, isFirst := false } : Ctl σ) := fun s => ⟨h.opened, h.good, h.none, h.aliases, h.name⟩
  unfold exchange at hx
  cases hs : C.send (aliased a x).1 (aliased a x).2 c.chan with
  | mk y s1 =>
    rw [hs] at hx
    cases y with
    | error e =>
      cases hx
      refine ⟨(fun _ h => nomatch h), (fun _ h => nomatch h), ?_⟩
      rintro e' ⟨⟩
      obtain ⟨msg, m1, m2⟩ := d1 _ _ hs
      exact ⟨_, msg, m1, rfl, m2, h.none, rfl⟩
    | ok u =>
      simp only at hx
      refine ⟨?_, ?_, ?_⟩
      · rintro r rfl
        exact ⟨_, d4 _ _ _ hs hx, calm s, rfl⟩
      · rintro r rfl
        obtain ⟨msg, m1, m2⟩ := d3 _ _ _ hs hx
        exact ⟨_, msg, m1, calm s, rfl, m2⟩
      · rintro e rfl
        obtain ⟨msg, m1, m2⟩ := d2 _ _ _ hs hx
        exact ⟨_, msg, m1, rfl, m2, h.none, rfl⟩

/-- Sending a list of commands. -/
theorem runStartup_exchange (C : Channel σ) {a : List (Str × Str)} {name : Str} : ∀ (xs : List Cmd) {c : Ctl σ}, Calm a name c →
    (∀ x ∈ xs, isWellFormedWord (aliased a x).1 = true ∧ ∀ y ∈ x.2, isWellFormedWord y = true) →
    (∃ c' , runStartup C xs c = (.ok (), c') ∧ Calm a name c' ∧ Accepts C (xs.map (aliased a)) c.chan c'.chan) ∨
    (∃ c' e t msg, runStartup C xs c = (.error e, c') ∧ e.toStop = .gtp msg ∧ t <:+ msg ∧ Declines C (xs.map (aliased a)) c.chan t c'.chan)
  | [], c, h, _ => .inl ⟨c, rfl, h, .done _⟩
  | x :: xs, c, h, hw => by
    unfold runStartup
    cases hx : exchange C (aliased a x) c.chan with
    | mk o s =>
      obtain ⟨d1, d2, d3⟩ := doCommand_exchange C h x (hw x (by simp)) hx
      cases o with
      | error e =>
        obtain ⟨c', msg, m1, m2, m3, _⟩ := d3 e rfl
        right
        rw [m1]
        exact ⟨c', _, e.msg, msg, rfl, rfl, m3, by rw [m2]; exact .here hx rfl⟩
      | ok y =>
        obtain ⟨f, r⟩ := y
        cases f with
        | true =>
          obtain ⟨c', msg, m1, _, m2, m3⟩ := d2 r rfl
          right
          rw [m1]
          exact ⟨c', _, r, msg, rfl, rfl, m3, by rw [m2]; exact .here hx rfl⟩
        | false =>
          obtain ⟨c', m1, m2, m3⟩ := d1 r rfl
          rw [m1]
          subst m3
          rcases runStartup_exchange C xs m2 (fun x hx => hw x (by simp [hx])) with ⟨c2, k1, k2, k3⟩ | ⟨c2, e, t, msg, k1, k2, k3, k4⟩
          · exact .inl ⟨c2, k1, k2, .next hx k3⟩
          · exact .inr ⟨c2, e, t, msg, k1, k2, k3, .later hx k4⟩

/-- Closing the engine. -/
theorem safeClose_exchange (C : Channel σ) {a : List (Str × Str)} {name : Str} {c : Ctl σ} (h : Calm a name c) (hw : isWellFormedWord (aliased a ("quit".toList, [])).1 = true)
    {o : Except ChErr (Bool × Str)} {s : σ} (hx : exchange C (aliased a ("quit".toList, [])) c.chan = (o, s)) :
    ∃ c', c.safeClose C = (.ok (), c') ∧ c'.chan = (C.close s).2 ∧ c'.closed = true ∧ (c'.errors = [] ↔ complaint o = none ∧ (C.close s).1 = none) := by
  obtain ⟨d1, d2, d3⟩ := doCommand_exchange C h ("quit".toList, []) ⟨hw, fun _ h => nomatch h⟩ hx
  have key : ∃ c1, c.safeQuit C = (.ok (), c1) ∧ c1.chan = s ∧ (c1.errors = [] ↔ complaint o = none) := by
    unfold Ctl.safeQuit Ctl.safeDoCommand
    simp only [h.good, h.opened, Bool.false_eq_true, if_false, Bool.or_self]
    cases o with
    | error e =>
      obtain ⟨c', msg, m1, m2, m3, m4, _⟩ := d3 e rfl
      rw [m1]
      exact ⟨_, rfl, m2, by simp [complaint]⟩
    | ok y =>
      obtain ⟨f, r⟩ := y
      cases f with
      | true =>
        obtain ⟨c', msg, m1, m2, m3, m4⟩ := d2 r rfl
        rw [m1]
        exact ⟨_, rfl, m3, by simp [complaint]⟩
      | false =>
        obtain ⟨c', m1, m2, m3⟩ := d1 r rfl
        rw [m1]
        exact ⟨_, rfl, m3, by simp [complaint, m2.none]⟩
  obtain ⟨c1, k1, k2, k3⟩ := key
  unfold Ctl.safeClose
  simp only [h.opened, Bool.false_eq_true, if_false, k1]
  rw [← k2]
  cases hc : C.close c1.chan with
  | mk m s' =>
    cases m with
    | none => exact ⟨_, rfl, rfl, rfl, by simp [k3]⟩
    | some m => exact ⟨_, rfl, rfl, rfl, by simp⟩

/-- What can happen, with the final state of the controller. -/
theorem checkPlayer_cases (W : JobWorld σ) (isDir : Str → Bool) (p : JobPlayer) (boardSize : Nat) (komi : Rat) (discardStderr : Bool) (hw : CheckWords p (W.strFloat komi)) :
    (∃ msg, checkPlayer W isDir p boardSize komi discardStderr = (some (.error msg), none) ∧ Fails W isDir p boardSize komi discardStderr msg ∧
      ((∃ d, p.cwd = some d ∧ isDir d = false) ∨ ∃ m, W.spawn (checkProcess W.osEnviron p discardStderr) = .error m)) ∨
    ((∀ d, p.cwd = some d → isDir d = true) ∧ ∃ s0 o s1, W.spawn (checkProcess W.osEnviron p discardStderr) = .ok s0 ∧
      exchange W.channel (aliased p.aliases ("protocol_version".toList, [])) s0 = (o, s1) ∧
      ((∃ msg c, checkPlayer W isDir p boardSize komi discardStderr = (some (.error msg), some c) ∧ Fails W isDir p boardSize komi discardStderr msg ∧
        c.chan = s1 ∧ ((∃ e, o = .error e) ∨ ∃ r, o = .ok (false, r) ∧ W.isTwo r = false)) ∨
       ∃ failed r, o = .ok (failed, r) ∧ (failed = true ∨ W.isTwo r = true) ∧
        ((∃ msg c t, checkPlayer W isDir p boardSize komi discardStderr = (some (.error msg), some c) ∧ Fails W isDir p boardSize komi discardStderr msg ∧
            Declines W.channel (checkCommands p (strInt boardSize) (W.strFloat komi)) s1 t c.chan) ∨
          ∃ s o' s' c, Accepts W.channel (checkCommands p (strInt boardSize) (W.strFloat komi)) s1 s ∧
            exchange W.channel (aliased p.aliases ("quit".toList, [])) s = (o', s') ∧
            checkPlayer W isDir p boardSize komi discardStderr = (some (.ok c.errors), some c) ∧ c.chan = (W.channel.close s').2 ∧ c.closed = true ∧
            (c.errors = [] ↔ complaint o' = none ∧ (W.channel.close s').1 = none)))) := by
  have hal : ∀ {x : Cmd}, isWellFormedWord x.1 = true → isWellFormedWord (aliased p.aliases x).1 = true := by
    intro x hx
    show isWellFormedWord ((p.aliases.lookup x.1).getD x.1) = true
    cases hl : p.aliases.lookup x.1 with
    | none => exact hx
    | some v => exact hw.aliases _ (lookup_mem hl)
  unfold checkPlayer
  cases hcwd : p.cwd.filter (fun d => !isDir d) with
  | some d =>
    rw [Option.filter_eq_some_iff] at hcwd
    have : isDir d = false := by simpa using hcwd.2
    exact .inl ⟨_, rfl, .badDirectory hcwd.1 this, .inl ⟨d, hcwd.1, this⟩⟩
  | none =>
    have hdir : ∀ d, p.cwd = some d → isDir d = true := by
      intro d hd
      rw [hd] at hcwd
      simpa [Option.filter] using hcwd
    cases hs : W.spawn (checkProcess W.osEnviron p discardStderr) with
    | error m =>
      have hs' := hs
      unfold checkProcess at hs'
      simp only [hs']
      exact .inl ⟨_, rfl, .noProcess hs, .inr ⟨m, rfl⟩⟩
    | ok s0 =>
      right
      refine ⟨hdir, s0, ?_⟩
      have hs' := hs
      unfold checkProcess at hs'
      simp only [hs']
      have hcalm : Calm p.aliases p.code ((Ctl.init s0 p.code).setAliases p.aliases) := ⟨rfl, rfl, rfl, rfl, rfl⟩
      generalize hc0 : (Ctl.init s0 p.code).setAliases p.aliases = c0 at hcalm
      have hch : c0.chan = s0 := by rw [← hc0]; rfl
      cases hx : exchange W.channel (aliased p.aliases ("protocol_version".toList, [])) s0 with
      | mk o s1 =>
        obtain ⟨d1, d2, d3⟩ := doCommand_exchange W.channel (o := o) (s := s1) hcalm ("protocol_version".toList, []) ⟨hal (by decide +kernel), fun _ h => nomatch h⟩ (by rw [hch]; exact hx)
        refine ⟨o, s1, by first | rfl | trivial, rfl, ?_⟩
        have key : (∃ c e msg, c0.checkProtocolVersion W.channel W.isTwo = (.error e, c) ∧ e.toStop = .gtp msg ∧ Fails W isDir p boardSize komi discardStderr msg ∧ c.chan = s1 ∧
              ((∃ e, o = .error e) ∨ ∃ r, o = .ok (false, r) ∧ W.isTwo r = false)) ∨
            (∃ c failed r, c0.checkProtocolVersion W.channel W.isTwo = (.ok (), c) ∧ Calm p.aliases p.code c ∧ c.chan = s1 ∧ o = .ok (failed, r) ∧ (failed = true ∨ W.isTwo r = true)) := by
          unfold Ctl.checkProtocolVersion
          simp only at d1 d2 d3
          cases o with
          | error e =>
            obtain ⟨c', msg, m1, m2, m3, _⟩ := d3 e rfl
            rw [m1]
            exact .inl ⟨c', _, msg, rfl, rfl, .noVersion hs hx m3, m2, .inl ⟨e, rfl⟩⟩
          | ok y =>
            obtain ⟨f, r⟩ := y
            cases f with
            | true =>
              obtain ⟨c', msg, m1, m2, m3, m4⟩ := d2 r rfl
              rw [m1]
              exact .inr ⟨c', true, r, rfl, m2, m3, rfl, .inl rfl⟩
            | false =>
              obtain ⟨c', m1, m2, m3⟩ := d1 r rfl
              rw [m1]
              simp only
              cases ht : W.isTwo r with
              | true => exact .inr ⟨c', false, r, by rw [if_pos rfl], m2, m3, rfl, .inr ht⟩
              | false =>
                exact .inl ⟨c', _, _, by rw [if_neg (by simp)], rfl, by rw [m2.name]; exact .badVersion hs hx ht, m3, .inr ⟨r, rfl, ht⟩⟩
        rcases key with ⟨c, e, msg, k1, k2, k3, k4, k5⟩ | ⟨c, failed, r, k1, k2, k3, k4, k5⟩
        · left
          simp only [k1, k2]
          exact ⟨msg, c, rfl, k3, k4, k5⟩
        · right
          refine ⟨failed, r, k4, k5, ?_⟩
          subst k4
          simp only [k1]
          have hwords : ∀ x ∈ p.startup ++ [("boardsize".toList, [strInt boardSize]), ("clear_board".toList, []), ("komi".toList, [W.strFloat komi])],
              isWellFormedWord (aliased p.aliases x).1 = true ∧ ∀ y ∈ x.2, isWellFormedWord y = true := by
            intro x hx
            rw [List.mem_append] at hx
            rcases hx with hx | hx
            · exact ⟨hal (hw.startup x hx).1, (hw.startup x hx).2⟩
            · simp only [List.mem_cons, List.not_mem_nil, or_false] at hx
              rcases hx with rfl | rfl | rfl
              · exact ⟨hal (by show isWellFormedWord "boardsize".toList = true; decide +kernel), by intro y hy; rw [List.mem_singleton] at hy; rw [hy]; exact word_strInt _⟩
              · exact ⟨hal (by show isWellFormedWord "clear_board".toList = true; decide +kernel), fun _ h => nomatch h⟩
              · exact ⟨hal (by show isWellFormedWord "komi".toList = true; decide +kernel), by intro y hy; rw [List.mem_singleton] at hy; rw [hy]; exact hw.komi⟩
          rcases runStartup_exchange W.channel _ k2 hwords with ⟨c2, r1, r2, r3⟩ | ⟨c2, e, t, msg, r1, r2, r3, r4⟩
          · right
            simp only [r1]
            cases hq : exchange W.channel (aliased p.aliases ("quit".toList, [])) c2.chan with
            | mk o' s' =>
              obtain ⟨c3, q1, q2, q3, q4⟩ := safeClose_exchange W.channel r2 (hal (by show isWellFormedWord "quit".toList = true; decide +kernel)) hq
              simp only [q1]
              exact ⟨c2.chan, o', s', c3, by rw [← k3]; exact r3, hq, rfl, q2, q3, q4⟩
          · left
            simp only [r1, r2]
            refine ⟨msg, c2, t, rfl, .refused hs hx k5 (by rw [← k3]; exact r4) r3, by rw [← k3]; exact r4⟩

theorem Spec.Accepts.unique {C : Channel σ} {xs : List Cmd} {s s1 s2 : σ} (h : Accepts C xs s s1) (h' : Accepts C xs s s2) : s1 = s2 := by
  induction h with
  | done s => cases h'; rfl
  | next h1 _ ih =>
    cases h' with
    | next h3 h4 =>
      rw [h1] at h3
      cases h3
      exact ih h4

theorem Spec.Accepts.not_declines {C : Channel σ} {xs : List Cmd} {s s1 s2 : σ} {t : Str} (h : Accepts C xs s s1) (h' : Declines C xs s t s2) : False := by
  induction h with
  | done s => cases h'
  | next h1 _ ih =>
    cases h' with
    | here h3 h4 =>
      rw [h1] at h3
      cases h3
      cases h4
    | later h3 h4 =>
      rw [h1] at h3
      cases h3
      exact ih h4

/-- C72: check_player returns (a list of warnings) exactly if the player passes the check, and otherwise raises CheckFailed saying what went wrong. There are no warnings exactly if
the engine accepts `quit` and closes down cleanly. -/
theorem C72_check_player (W : JobWorld σ) (isDir : Str → Bool) (p : JobPlayer) (boardSize : Nat) (komi : Rat) (discardStderr : Bool) (hw : CheckWords p (W.strFloat komi)) :
    ∃ out c, checkPlayer W isDir p boardSize komi discardStderr = (some out, c) ∧
      ((∃ warnings, out = .ok warnings) ↔ ∃ s, Passes W isDir p boardSize komi discardStderr s) ∧
      (∀ warnings s, out = .ok warnings → Passes W isDir p boardSize komi discardStderr s → (warnings = [] ↔ QuitsCleanly W.channel p s)) ∧
      (∀ msg, out = .error msg → Fails W isDir p boardSize komi discardStderr msg) := by
  rcases checkPlayer_cases W isDir p boardSize komi discardStderr hw with ⟨msg, h1, h2, h3⟩ | ⟨hdir, s0, o, s1, hs, hx, h⟩
  · refine ⟨_, _, h1, ⟨?_, ?_⟩, ?_, ?_⟩
    · rintro ⟨_, h⟩; cases h
    · rintro ⟨s, hp⟩
      obtain ⟨s0, s1, f, r, e1, _⟩ := hp.commands
      rcases h3 with ⟨d, h3, h4⟩ | ⟨m, h3⟩
      · rw [hp.cwd d h3] at h4; cases h4
      · rw [e1] at h3; cases h3
    · intro _ _ h; cases h
    · rintro _ ⟨⟩; exact h2
  · have start : ∀ {s}, Passes W isDir p boardSize komi discardStderr s → ∃ failed r, o = .ok (failed, r) ∧ (failed = true ∨ W.isTwo r = true) ∧
        Accepts W.channel (checkCommands p (strInt boardSize) (W.strFloat komi)) s1 s := by
      intro s hp
      obtain ⟨s0', s1', f, r, e1, e2, e3, e4⟩ := hp.commands
      rw [hs] at e1
      cases e1
      rw [hx] at e2
      injection e2 with e2 e5
      subst e5
      exact ⟨f, r, e2, e3, e4⟩
    rcases h with ⟨msg, c, h1, h2, _, h3⟩ | ⟨failed, r, ho, hf, h⟩
    · refine ⟨_, _, h1, ⟨?_, ?_⟩, ?_, ?_⟩
      · rintro ⟨_, h⟩; cases h
      · rintro ⟨s, hp⟩
        obtain ⟨f, r, e1, e2, _⟩ := start hp
        rcases h3 with ⟨e, h3⟩ | ⟨r', h3, h4⟩
        · rw [e1] at h3; cases h3
        · rw [e1] at h3
          cases h3
          rcases e2 with e2 | e2
          · cases e2
          · rw [h4] at e2; cases e2
      · intro _ _ h; cases h
      · rintro _ ⟨⟩; exact h2
    · rcases h with ⟨msg, c, t, h1, h2, h3⟩ | ⟨s, o', s', c, h1, h2, h3, _, _, h4⟩
      · refine ⟨_, _, h1, ⟨?_, ?_⟩, ?_, ?_⟩
        · rintro ⟨_, h⟩; cases h
        · rintro ⟨s, hp⟩
          obtain ⟨_, _, _, _, e⟩ := start hp
          exact (e.not_declines h3).elim
        · intro _ _ h; cases h
        · rintro _ ⟨⟩; exact h2
      · refine ⟨_, _, h3, ⟨?_, ?_⟩, ?_, ?_⟩
        · intro _
          subst ho
          exact ⟨s, hdir, s0, s1, failed, r, hs, hx, hf, h1⟩
        · intro _; exact ⟨_, rfl⟩
        · rintro _ s2 ⟨⟩ hp
          obtain ⟨_, _, _, _, e⟩ := start hp
          have := e.unique h1
          subst this
          rw [h4]
          constructor
          · rintro ⟨h5, h6⟩
            cases o' with
            | error e => cases h5
            | ok y =>
              obtain ⟨f, r'⟩ := y
              cases f with
              | true => cases h5
              | false => exact ⟨r', s', h2, h6⟩
          · rintro ⟨r', s'', h5, h6⟩
            rw [h2] at h5
            cases h5
            exact ⟨rfl, h6⟩
        · intro _ h; cases h

theorem exchange_sent (C : Channel σ) (x : Cmd) (s : σ × List Event) {o : Except ChErr (Bool × Str)} {s' : σ × List Event} (h : exchange (logged C) x s = (o, s')) :
    commandsSent s'.2 = commandsSent s.2 ++ [x] := by
  have : s' = (exchange (logged C) x s).2 := by rw [h]
  rw [this]
  unfold exchange
  split
  · rename_i e s1 hs
    have : s1 = ((logged C).send x.1 x.2 s).2 := by rw [hs]
    rw [this]
    simp [logged, commandsSent, commandOf]
  · rename_i s1 hs
    have : s1 = ((logged C).send x.1 x.2 s).2 := by rw [hs]
    rw [this]
    simp [logged, commandsSent, commandOf]

theorem accepts_sent {C : Channel σ} {xs : List Cmd} {s s' : σ × List Event} (h : Accepts (logged C) xs s s') : commandsSent s'.2 = commandsSent s.2 ++ xs := by
  induction h with
  | done s => simp
  | next h1 _ ih => rw [ih, exchange_sent C _ _ h1]; simp

theorem declines_sent {C : Channel σ} {xs : List Cmd} {s s' : σ × List Event} {t : Str} (h : Declines (logged C) xs s t s') :
    ∃ ys, ys <+: xs ∧ commandsSent s'.2 = commandsSent s.2 ++ ys := by
  induction h with
  | @here x xs s s1 o t h1 _ => exact ⟨[x], ⟨xs, rfl⟩, exchange_sent C _ _ h1⟩
  | @later x xs s s1 s2 r t h1 _ ih =>
    obtain ⟨ys, hy, e⟩ := ih
    exact ⟨x :: ys, (List.prefix_cons_inj x).2 hy, by rw [e, exchange_sent C _ _ h1]; simp⟩

/-- C72: the commands sent, in order: protocol_version, the startup commands, boardsize, clear_board, komi, quit (all under their aliases). If there are warnings or none (rather than CheckFailed) all of
them have been sent, and the channel has been closed after them; otherwise some of them have been. -/
theorem C72_commands (W : JobWorld (σ × List Event)) (C : Channel σ) (hC : W.channel = logged C) (isDir : Str → Bool) (p : JobPlayer) (boardSize : Nat) (komi : Rat) (discardStderr : Bool)
    (hw : CheckWords p (W.strFloat komi)) (hnew : ∀ x s, W.spawn x = .ok s → s.2 = []) {out : Option (Except Str (List Str))} {c : Ctl (σ × List Event)}
    (h : checkPlayer W isDir p boardSize komi discardStderr = (out, some c)) :
    commandsSent c.chan.2 <+: aliased p.aliases ("protocol_version".toList, []) :: checkCommands p (strInt boardSize) (W.strFloat komi) ++ [aliased p.aliases ("quit".toList, [])] ∧
    (∀ warnings, out = some (.ok warnings) →
      commandsSent c.chan.2 = aliased p.aliases ("protocol_version".toList, []) :: checkCommands p (strInt boardSize) (W.strFloat komi) ++ [aliased p.aliases ("quit".toList, [])] ∧
      ∃ ok, c.chan.2.getLast? = some (.closed ok)) := by
  rcases checkPlayer_cases W isDir p boardSize komi discardStderr hw with ⟨msg, h1, _⟩ | ⟨_, s0, o, s1, hs, hx, hcase⟩
  · rw [h1] at h; cases h
  · have h0 := hnew _ _ hs
    rw [hC] at hx hcase
    have e1 := exchange_sent C _ _ hx
    rw [h0] at e1
    replace e1 : commandsSent s1.2 = [aliased p.aliases ("protocol_version".toList, [])] := e1
    rcases hcase with ⟨msg, c', h1, _, h2, _⟩ | ⟨_, _, _, _, ⟨msg, c', t, h1, _, h2⟩ | ⟨s, o', s', c', h1, h2, h3, h4, _⟩⟩
    · rw [h1] at h
      cases h
      refine ⟨?_, fun _ h => nomatch h⟩
      rw [h2, e1]
      exact ⟨_, rfl⟩
    · rw [h1] at h
      cases h
      refine ⟨?_, fun _ h => nomatch h⟩
      obtain ⟨ys, ⟨zs, hz⟩, e2⟩ := declines_sent h2
      rw [e2, e1, ← hz]
      exact ⟨zs ++ [aliased p.aliases ("quit".toList, [])], by simp⟩
    · rw [h3] at h
      cases h
      have e2 : commandsSent c.chan.2 =
          aliased p.aliases ("protocol_version".toList, []) :: checkCommands p (strInt boardSize) (W.strFloat komi) ++ [aliased p.aliases ("quit".toList, [])] := by
        rw [h4]
        have : commandsSent ((logged C).close s').2.2 = commandsSent s'.2 := by simp [logged, commandsSent, commandOf]
        rw [this, exchange_sent C _ _ h2, accepts_sent h1, e1]
        rfl
      refine ⟨e2 ▸ List.prefix_refl _, ?_⟩
      intro _ _
      refine ⟨e2, ?_⟩
      rw [h4]
      exact ⟨_, List.getLast?_concat ..⟩

/-- A player for the examples. -/
def examplePlayer : JobPlayer where
  code := "test".toList
  cmdArgs := ["b".toList]
  aliases := [("komi".toList, "set_komi".toList)]
  startup := [("list_commands".toList, ["x".toList])]
  cwd := some "/tmp".toList

/-- A check of an engine. -/
def exampleCheck (extra : List (Str × Str)) (isDir : Bool) : Option (Except Str (List Str)) :=
  (checkPlayer { exampleWorld "" "" with spawn := fun _ => .ok (extra ++ simpleEngine "pass", none) } (fun _ => isDir) examplePlayer 9 (13/2) true).1

/-- C72: non-vacuity: the words of the example player are all right; a check which passes with a warning, one which passes without, and some which fail. -/
theorem C72_witness :
    CheckWords examplePlayer "6.5".toList ∧
    (exampleCheck [("list_commands".toList, []), ("set_komi".toList, [])] true).map Except.toOption = some (some ["failure response from 'quit' to test:\nnot now".toList]) ∧
    (exampleCheck [("list_commands".toList, []), ("set_komi".toList, []), ("quit".toList, [])] true).map Except.toOption = some (some []) ∧
    (exampleCheck [("list_commands".toList, [])] true).map Except.toOption = some none ∧
    (exampleCheck [("set_komi".toList, [])] true).map Except.toOption = some none ∧
    (exampleCheck [("list_commands".toList, []), ("set_komi".toList, []), ("protocol_version".toList, "1".toList)] true).map Except.toOption = some none ∧
    (exampleCheck [("list_commands".toList, []), ("set_komi".toList, []), ("quit".toList, [])] false).map Except.toOption = some none := by
  refine ⟨⟨?_, ?_, by decide +kernel⟩, by decide +kernel, by decide +kernel, by decide +kernel, by decide +kernel, by decide +kernel, by decide +kernel⟩
  · intro kv h
    cases h with
    | head => decide +kernel
    | tail _ h => cases h
  · intro x h
    cases h with
    | head =>
      refine ⟨by decide +kernel, ?_⟩
      intro a ha
      cases ha with
      | head => decide +kernel
      | tail _ h => cases h
    | tail _ h => cases h

end Gomill.Gtp
