import Verif.Spec.StatefulPlayer
import Verif.Props.GtpStateEngine
import Verif.Props.GtpLockstep
import Verif.Props.GtpSession
import Verif.Props.GtpSave
/-
C103: the example engine gtp_stateful_player.
-/
namespace Gomill.Gtp.Stateful
open Py Go Session Gomill.Gtp.Spec

variable {ν : Type} {W : World ν}

/-! ### What the handlers do -/

/-- A failure which isn't the end of the session. -/
def Mild (o : Outcome) : Prop := (∃ m, o = .gtpError m) ∨ ∃ tb, o = .exception tb

theorem raised_mild {α : Type} {x : Except Exc α} {o : Outcome} (h : raised x = .error o) : Mild o := by
  cases x with
  | error e => cases h; exact .inr ⟨_, rfl⟩
  | ok b => cases h

theorem setExtras_mild {g : Sgf.GameRec} : ∀ (extras : List Str) {L : Sgf.Lib} {o : Outcome}, setExtras g extras L = .error o → Mild o
  | [], L, o, h => by cases h
  | a :: as, L, o, h => by
    unfold setExtras at h
    split at h
    · injection h with h; exact .inl ⟨_, h.symm⟩
    · rcases except_bind_error h with h | ⟨L1, _, h⟩
      · exact raised_mild h
      · exact setExtras_mild as h

theorem sgfText_mild {V : SaveEnv} {s : GS} {extras : List Str} {o : Outcome} (h : s.sgfText V extras = .error o) : Mild o := by
  unfold GS.sgfText at h
  rcases except_bind_error h with h | ⟨L0, _, h⟩
  · exact raised_mild h
  split at h
  · injection h with h; exact .inr ⟨_, h.symm⟩
  rcases except_bind_error h with h | ⟨L1, _, h⟩
  · exact raised_mild h
  rcases except_bind_error h with h | ⟨L2, _, h⟩
  · exact setExtras_mild _ h
  rcases except_bind_error h with h | ⟨L3, _, h⟩
  · exact raised_mild h
  · exact raised_mild h

theorem savesgf_mild (V : SaveEnv) (s : GS) (args : List Str) : (s.savesgf V args).1.2 = .value none ∨ Mild (s.savesgf V args).1.2 := by
  unfold GS.savesgf
  split
  · exact .inr (.inl ⟨_, rfl⟩)
  · split
    · rename_i h; exact .inr (sgfText_mild h)
    · split
      · exact .inl rfl
      · exact .inr (.inl ⟨_, rfl⟩)

/-- No handler ends the session. -/
theorem handle_mild {a : App ν} (ha : Lived [9, 13, 19] a.gs) (h : H) (args : List Str) : (∃ r, (handle W h args a).1 = .value r) ∨ Mild (handle W h args a).1 := by
  cases h with
  | state c =>
    obtain ⟨n, hi⟩ := ha.inv
    rcases verdict (env := envOf W a) hi c args with ⟨_, _, h⟩ | ⟨_, _, h⟩ | ⟨_, _, h⟩
    · exact .inl h
    · exact .inr (.inr h)
    · exact .inr (.inl h)
  | showboard =>
    show (∃ r, a.gs.showboard args = .value r) ∨ Mild (a.gs.showboard args)
    unfold GS.showboard
    split
    · exact .inr (.inr ⟨_, rfl⟩)
    · exact .inl ⟨_, rfl⟩
  | savesgf =>
    rcases savesgf_mild (saveEnvOf W a) a.gs args with h | h
    · exact .inl ⟨_, h⟩
    · exact .inr h
  | name => exact .inl ⟨_, rfl⟩
  | version => exact .inl ⟨_, rfl⟩
  | resignP =>
    show (∃ r, (handleResignP W args a).1 = .value r) ∨ Mild (handleResignP W args a).1
    unfold handleResignP
    split
    · exact .inr (.inl ⟨_, rfl⟩)
    · split
      · exact .inr (.inl ⟨_, rfl⟩)
      · exact .inl ⟨_, rfl⟩

/-! ### Running a command -/

/-- The table of handlers. -/
def table : List (Str × Session.Handler H) :=
  playerHandlers ++ (stateHandlers ++ [("quit".toList, .quit), ("protocol_version".toList, .protocolVersion), ("list_commands".toList, .listCommands), ("known_command".toList, .knownCommand)])

theorem run_custom {e : Session.Eng H (App ν)} {cmd : Str} {h : H} (hl : e.handlers.lookup cmd = some (.custom h)) (hf : e.exceptionsFatal = false) (args : List Str) :
    (e.run (call W) cmd args).2 = { e with app := (handle W h args e.app).2 } ∧
    (∀ r, (handle W h args e.app).1 = .value r → (e.run (call W) cmd args).1 = (false, cleanResponse r, false)) ∧
    (Mild (handle W h args e.app).1 → ∃ text, (e.run (call W) cmd args).1 = (true, text, false)) := by
  unfold Session.Eng.run Session.Eng.doCommand
  rw [hl]
  simp only [Session.Handler.call, call]
  generalize handle W h args e.app = r
  obtain ⟨o, a⟩ := r
  cases o with
  | value r => exact ⟨rfl, (fun r' h => by cases h; rfl), by rintro (⟨_, h⟩ | ⟨_, h⟩) <;> cases h⟩
  | gtpError m => exact ⟨rfl, (fun r' h => by cases h), fun _ => ⟨_, rfl⟩⟩
  | exception tb =>
    simp only [hf]
    exact ⟨trivial, (fun r' h => by cases h), fun _ => ⟨_, rfl⟩⟩
  | gtpFatalError m => exact ⟨rfl, (fun r' h => by cases h), by rintro (⟨_, h⟩ | ⟨_, h⟩) <;> cases h⟩
  | gtpQuit m => exact ⟨rfl, (fun r' h => by cases h), by rintro (⟨_, h⟩ | ⟨_, h⟩) <;> cases h⟩

/-- What's true of the engine at any time. -/
structure Good (e : Session.Eng H (App ν)) : Prop where
  table : e.handlers = table
  fatal : e.exceptionsFatal = false
  lived : Lived [9, 13, 19] e.app.gs

theorem makeEngine_good {w : ν} {e : Session.Eng H (App ν)} (h : makeEngine w = .ok e) : Good e := by
  unfold makeEngine at h
  split at h
  · cases h
  · rename_i s hs
    cases h
    exact ⟨rfl, rfl, .start hs⟩

/-- The handlers of an engine. -/
theorem lookup_cases (cmd : Str) (h : Session.Handler H) (hl : table.lookup cmd = some h) : (∃ c, h = .custom c) ∨ cmd = "quit".toList ∧ h = .quit ∨ h = .protocolVersion ∨ h = .listCommands ∨ h = .knownCommand := by
  unfold table playerHandlers stateHandlers at hl
  simp only [List.cons_append, List.nil_append, List.lookup_cons, List.lookup_nil] at hl
  repeat' split at hl
  all_goals first
    | (injection hl with hl; subst hl; first | exact .inl ⟨_, rfl⟩ | exact .inr (.inr (.inl rfl)) | exact .inr (.inr (.inr (.inl rfl))) | exact .inr (.inr (.inr (.inr rfl))) | (rename_i hq; exact .inr (.inl ⟨by simpa using hq, rfl⟩)))
    | cases hl

theorem handle_lived {a : App ν} (ha : Lived [9, 13, 19] a.gs) (h : H) (args : List Str)
    (hs : Mild (handle W h args a).1 → (handle W h args a).2.gs.boardSize = a.gs.boardSize) : Lived [9, 13, 19] (handle W h args a).2.gs := by
  cases h with
  | state c =>
    refine .step (env := envOf W a) (c := c) (args := args) ha (Prod.eta _).symm (fun hf => hs ?_)
    rcases handle_mild (W := W) ha (.state c) args with h | h
    · exact absurd h hf
    · exact h
  | showboard => exact ha
  | savesgf => show Lived _ (a.gs.savesgf (saveEnvOf W a) args).1.1; rw [(C56_outcomes _ _ _).1]; exact ha
  | name => exact ha
  | version => exact ha
  | resignP =>
    show Lived _ (handleResignP W args a).2.gs
    unfold handleResignP
    split
    · exact ha
    · split <;> exact ha

theorem run_good {e : Session.Eng H (App ν)} (he : Good e) (cmd : Str) (args : List Str)
    (hs : (e.run (call W) cmd args).1.1 = true → (e.run (call W) cmd args).2.app.gs.boardSize = e.app.gs.boardSize) :
    Good (e.run (call W) cmd args).2 ∧ ((e.run (call W) cmd args).1.2.2 = true ↔ cmd = "quit".toList) := by
  have nq : ∀ h, table.lookup cmd = some h → h ≠ .quit → cmd ≠ "quit".toList := by
    rintro h h1 h2 rfl
    have : table.lookup "quit".toList = some .quit := by decide +kernel
    rw [this] at h1
    cases h1
    exact h2 rfl
  cases hl : table.lookup cmd with
  | none =>
    have hl' : e.handlers.lookup cmd = none := by rw [he.table]; exact hl
    rw [(C92_outcomes (call W) e e cmd args .name).1 hl']
    refine ⟨he, (fun h => nomatch h), ?_⟩
    rintro rfl
    have : table.lookup "quit".toList = some .quit := by decide +kernel
    rw [this] at hl
    cases hl
  | some h =>
    have hl' : e.handlers.lookup cmd = some h := by rw [he.table]; exact hl
    rcases lookup_cases cmd h hl with ⟨c, rfl⟩ | ⟨rfl, rfl⟩ | rfl | rfl | rfl
    · obtain ⟨h1, h2, h3⟩ := run_custom (W := W) hl' he.fatal args
      have hfin : (e.run (call W) cmd args).1.2.2 = false := by
        rcases handle_mild (W := W) he.lived c args with ⟨r, h⟩ | h
        · rw [h2 r h]
        · obtain ⟨t, h⟩ := h3 h; rw [h]
      refine ⟨?_, ?_⟩
      · rw [h1] at hs ⊢
        refine ⟨he.table, he.fatal, handle_lived he.lived c args (fun hm => hs ?_)⟩
        obtain ⟨t, h⟩ := h3 hm
        rw [h]
      · rw [hfin]
        exact ⟨(fun h => nomatch h), fun h => absurd h (nq _ hl (fun h => nomatch h))⟩
    · rw [(C92_protocol (call W) e _ args).2.1 hl']
      exact ⟨he, fun _ => rfl, fun _ => rfl⟩
    · rw [(C92_protocol (call W) e _ args).1 hl']
      exact ⟨he, (fun h => nomatch h), fun h => absurd h (nq _ hl (fun h => nomatch h))⟩
    · have : (e.run (call W) cmd args).2 = e ∧ (e.run (call W) cmd args).1.2.2 = false := by
        simp only [Session.Eng.run, Session.Eng.doCommand, hl', Session.Handler.call, reply, and_self]
      rw [this.1, this.2]
      exact ⟨he, (fun h => nomatch h), fun h => absurd h (nq _ hl (fun h => nomatch h))⟩
    · have : (e.run (call W) cmd args).2 = e ∧ (e.run (call W) cmd args).1.2.2 = false := by
        simp only [Session.Eng.run, Session.Eng.doCommand, hl', Session.Handler.call, reply, and_self]
      rw [this.1, this.2]
      exact ⟨he, (fun h => nomatch h), fun h => absurd h (nq _ hl (fun h => nomatch h))⟩

theorem Reached.good {e : Session.Eng H (App ν)} (h : Reached W e) : Good e := by
  induction h with
  | start h => exact makeEngine_good h
  | @command e e' cmd args err fin text _ hr hs ih =>
    have := (run_good (W := W) ih cmd args (by rw [hr]; exact hs)).1
    rw [hr] at this
    exact this
  | elsewhere w _ ih => exact ⟨ih.table, ih.fatal, ih.lived⟩

/-! ### The empty points -/

/-- There's always somewhere to play. -/
theorem empty_point {n : Nat} {pos : Position} (hn : 1 ≤ n) (hl : Legal n pos) : ∃ p, OnBoard n p ∧ pos p = none := by
  have h0 : OnBoard n (0, 0) := by unfold OnBoard; simp only; omega
  by_cases h : pos (0, 0) = none
  · exact ⟨_, h0, h⟩
  · obtain ⟨q, r, _, _, hr, he⟩ := hl _ h0 h
    exact ⟨r, hr, he⟩

theorem mem_empties {n : Nat} {b : Board} (hb : BoardInv n b) (p : Pt) : p ∈ empties b ↔ OnBoard n p ∧ b.pos p = none := by
  unfold empties
  rw [List.mem_filter, mem_boardPoints, ← hb.side]
  constructor
  · rintro ⟨h1, h2⟩
    exact ⟨h1, by rw [at_eq_pos hb.wf h1] at h2; simpa using h2⟩
  · rintro ⟨h1, h2⟩
    exact ⟨h1, by rw [at_eq_pos hb.wf h1]; simpa using h2⟩

theorem empties_ne {n : Nat} {b : Board} (hn : 1 ≤ n) (hb : BoardInv n b) : empties b ≠ [] := by
  obtain ⟨p, h⟩ := empty_point hn hb.legal
  exact List.ne_nil_of_mem ((mem_empties hb p).2 h)

theorem nodup_empties (b : Board) : (empties b).Nodup := (nodup_boardPoints _).filter _

/-- The generator: it resigns or chooses an empty point. -/
theorem genmove_cases (hW : Fair W) (r : Rat) {n : Nat} {b : Board} (hn : 1 ≤ n) (hb : BoardInv n b) (w : ν) :
    ((W.random w).1 < r ∧ genmove W r b w = (some { resign := true }, (W.random w).2)) ∨
    r ≤ (W.random w).1 ∧ ∃ k w' p, W.choice (empties b).length (W.random w).2 = (k, w') ∧ (empties b)[k]? = some p ∧
      genmove W r b w = (some { move := some p, comments := some ("chosen at random from ".toList ++ strInt (empties b).length ++ " choices".toList) }, w') := by
  unfold genmove
  by_cases h : (W.random w).1 < r
  · rw [if_pos h]; exact .inl ⟨h, rfl⟩
  · rw [if_neg h, if_neg (empties_ne hn hb)]
    refine .inr ⟨Rat.not_lt.1 h, ?_⟩
    have hk := hW.choice (empties b).length (W.random w).2 (List.length_pos_of_ne_nil (empties_ne hn hb))
    generalize hc : W.choice (empties b).length (W.random w).2 = x at hk
    obtain ⟨k, w'⟩ := x
    refine ⟨k, w', (empties b)[k], rfl, List.getElem?_eq_getElem hk, ?_⟩
    simp only [List.getElem?_eq_getElem hk]

theorem sizes {s : GS} (h : Lived [9, 13, 19] s) : s.boardSize = 9 ∨ s.boardSize = 13 ∨ s.boardSize = 19 := by
  have := h.sizes.2
  simpa using this

/-- Running one of the commands of the Gtp_state. -/
theorem run_state {e : Session.Eng H (App ν)} (he : Good e) {cmd : Str} {c : Cmd} (h : table.lookup cmd = some (.custom (.state c))) (args : List Str) :
    (e.run (call W) cmd args).2 = { e with app := { e.app with gs := (e.app.gs.step (envOf W e.app) c args).1, world := if asks c args then (genmove W e.app.resignP e.app.gs.board e.app.world).2 else e.app.world } } ∧
    (∀ r, (e.app.gs.step (envOf W e.app) c args).2 = .value r → (e.run (call W) cmd args).1 = (false, cleanResponse r, false)) ∧
    (Mild (e.app.gs.step (envOf W e.app) c args).2 → ∃ text, (e.run (call W) cmd args).1 = (true, text, false)) :=
  run_custom (W := W) (e := e) (cmd := cmd) (h := .state c) (by rw [he.table]; exact h) he.fatal args

theorem generated (hW : Fair W) {e : Session.Eng H (App ν)} (he : Good e) {n : Nat} (hn : e.app.gs.boardSize = n) {cmd : Str} {c : Cmd} {reg claim : Bool} {a : Str} {col : Colour}
    (extra : List Str) (hl : table.lookup cmd = some (.custom (.state c))) (hk : genmoveKind c extra = some (claim, reg)) (hc : c = .genmove ∨ c = .genmoveEx ∨ c = .regGenmove)
    (ha : IsColour a col) : Generated W n e col reg (empties e.app.gs.board) (e.run (call W) cmd (a :: extra)) := by
  have hi := he.lived.inv_of hn
  have hn1 : 1 ≤ n := by have := hi.two; omega
  have hn25 : n ≤ 25 := by rcases sizes he.lived with h | h | h <;> omega
  have hb := hi.board.inv
  have hasks : asks c (a :: extra) = true := by
    unfold asks
    simp only [(C62_colour a col).2 ha]
    rcases hc with rfl | rfl | rfl <;> rfl
  obtain ⟨h1, h2, h3⟩ := run_state (W := W) he hl (a :: extra)
  have hans := genmove_answer (env := envOf W e.app) (claim := claim) (fr := reg) hi ha
  rw [hasks] at h1
  rw [← step_genmove hk] at hans
  have hg : (envOf W e.app).generate (e.app.gs.gameState col reg) col = (genmove W e.app.resignP e.app.gs.board e.app.world).1 := rfl
  rw [hg] at hans
  generalize e.app.gs.step (envOf W e.app) c (a :: extra) = x at h1 h2 h3 hans
  obtain ⟨gs', o⟩ := x
  rcases genmove_cases hW e.app.resignP hn1 hb e.app.world with ⟨hr, hgen⟩ | ⟨hr, k, w', p, hch, hp, hgen⟩
  · rw [hgen] at hans h1
    simp only [AnswerSpec, Bool.false_eq_true, and_false, if_false, if_true] at hans
    obtain ⟨rfl, rfl⟩ := hans
    have hrun : e.run (call W) cmd (a :: extra) = ((false, "resign".toList, false), { e with app := { e.app with world := (W.random e.app.world).2 } }) := by
      refine Prod.ext ?_ h1
      rw [h2 _ rfl, clean_word (by decide +kernel)]
    rw [hrun]
    exact .resign hr
  · rw [hgen] at hans h1
    have hpe := (mem_empties hb p).1 (List.mem_of_getElem? hp)
    have hpb : OnBoard 25 p := by have := hpe.1; unfold OnBoard at *; omega
    have hf := moveWord_format hn25 (m := some p) (fun q hq => by cases hq; exact hpe.1)
    simp only [AnswerSpec, Bool.false_eq_true, and_false, if_false] at hans
    rcases hans with ⟨hx, _⟩ | ⟨v, hv, hans⟩
    · exact absurd hpb hx
    rw [hf] at hv
    cases hv
    have key : o = .value (some (moveWord (some p))) → (reg = true → gs' = e.app.gs) → (reg = false → gs'.board.pos = rulesPlay n e.app.gs.board.pos p col ∧
        gs' = { e.app.gs with board := gs'.board, koPoint := gs'.koPoint, koPlayer := gs'.koPlayer, history := e.app.gs.history ++ [⟨col, some p, some ("chosen at random from ".toList ++ strInt (empties e.app.gs.board).length ++ " choices".toList), none⟩] }) →
        Generated W n e col reg (empties e.app.gs.board) (e.run (call W) cmd (a :: extra)) := by
      rintro rfl hreg hplay
      have hrun : e.run (call W) cmd (a :: extra) = ((false, moveWord (some p), false), { e with app := { e.app with gs := gs', world := w' } }) := by
        refine Prod.ext ?_ h1
        rw [h2 _ rfl, clean_word (word_formatVertex hf)]
      rw [hrun]
      exact .chosen p k w' gs' hr hch hp hreg hplay
    cases reg with
    | true =>
      simp only [if_true] at hans
      exact key hans.2 (fun _ => hans.1) (fun h => nomatch h)
    | false =>
      simp only [Bool.false_eq_true, if_false] at hans
      rcases hans with ⟨hx, _⟩ | ⟨_, hx, _⟩ | ⟨_, _, ho, hpos, hgs⟩
      · exact absurd hpe.1 hx
      · exact absurd hpe.2 hx
      · exact key ho (fun h => nomatch h) (fun _ => ⟨hpos, hgs⟩)

/-! ### The theorems -/

/-- C103: the engine has exactly the commands listed, whatever has happened; and it plays on boards of size 9, 13 or 19. -/
theorem C103_commands {e : Session.Eng H (App ν)} (h : Reached W e) :
    e.listCommands = commands ∧ (e.app.gs.boardSize = 9 ∨ e.app.gs.boardSize = 13 ∨ e.app.gs.boardSize = 19) ∧
    ∀ args, e.run (call W) "list_commands".toList args = ((false, Py.join ['\n'] commands, false), e) ∧ e.run (call W) "name".toList args = ((false, "GTP stateful player".toList, false), e) ∧
      e.run (call W) "version".toList args = ((false, [], false), e) := by
  have hg := h.good
  have hl : e.listCommands = commands := by
    unfold Session.Eng.listCommands
    rw [hg.table]
    decide +kernel
  refine ⟨hl, sizes hg.lived, fun args => ⟨?_, ?_, ?_⟩⟩
  · have : e.handlers.lookup "list_commands".toList = some .listCommands := by rw [hg.table]; decide +kernel
    unfold Session.Eng.run Session.Eng.doCommand
    rw [this]
    simp only [Session.Handler.call, reply, hl]
    have : cleanResponse (some (Py.join ['\n'] commands)) = Py.join ['\n'] commands := by decide +kernel
    rw [this]
  · obtain ⟨h1, h2, _⟩ := run_custom (W := W) (e := e) (cmd := "name".toList) (h := .name) (by rw [hg.table]; decide +kernel) hg.fatal args
    refine Prod.ext ?_ h1
    have : cleanResponse (some "GTP stateful player".toList) = "GTP stateful player".toList := by decide +kernel
    rw [h2 _ rfl, this]
  · obtain ⟨h1, h2, _⟩ := run_custom (W := W) (e := e) (cmd := "version".toList) (h := .version) (by rw [hg.table]; decide +kernel) hg.fatal args
    refine Prod.ext ?_ h1
    have : cleanResponse (some []) = [] := by decide +kernel
    rw [h2 _ rfl, this]

/-- C103: asked for a move, the engine resigns with the probability asked for, or else plays on a point chosen from all the empty ones; it never fails. -/
theorem C103_genmove (hW : Fair W) {e : Session.Eng H (App ν)} (h : Reached W e) {cmd : Str} {reg : Bool} (hc : (cmd, reg) ∈ moveCommands) {a : Str} {col : Colour} (ha : IsColour a col)
    (extra : List Str) : ∃ (n : Nat) (points : List Pt), e.app.gs.boardSize = n ∧ points.Nodup ∧ (∀ p, p ∈ points ↔ OnBoard n p ∧ e.app.gs.board.pos p = none) ∧ points ≠ [] ∧
      Generated W n e col reg points (e.run (call W) cmd (a :: extra)) := by
  have hg := h.good
  obtain ⟨n, hi⟩ := hg.lived.inv
  refine ⟨n, empties e.app.gs.board, hi.size, nodup_empties _, mem_empties hi.board.inv, empties_ne (by have := hi.two; omega) hi.board.inv, ?_⟩
  simp only [moveCommands, List.mem_cons, Prod.mk.injEq, List.not_mem_nil, or_false] at hc
  rcases hc with ⟨rfl, rfl⟩ | ⟨rfl, rfl⟩ | ⟨rfl, rfl⟩
  · exact generated hW hg hi.size extra (c := .genmove) (by decide +kernel) (claim := false) rfl (.inl rfl) ha
  · exact generated hW hg hi.size extra (c := .genmoveEx) (by decide +kernel) (claim := decide ("claim".toList ∈ extra)) rfl (.inr (.inl rfl)) ha
  · exact generated hW hg hi.size extra (c := .regGenmove) (by decide +kernel) (claim := false) rfl (.inr (.inr rfl)) ha

/-- C103: gomill-explain_last_move says how many points the move was chosen from. -/
theorem C103_explain {e : Session.Eng H (App ν)} (h : Reached W e) (args : List Str) (l : List HistMove) (m : HistMove) (k : Int) (hm : e.app.gs.history = l ++ [m])
    (hc : m.comments = some ("chosen at random from ".toList ++ strInt k ++ " choices".toList)) :
    e.run (call W) "gomill-explain_last_move".toList args = ((false, "chosen at random from ".toList ++ strInt k ++ " choices".toList, false), e) := by
  have hg := h.good
  obtain ⟨h1, h2, _⟩ := run_state (W := W) hg (cmd := "gomill-explain_last_move".toList) (c := .explainLastMove) (by decide +kernel) args
  have hs : e.app.gs.step (envOf W e.app) .explainLastMove args = (e.app.gs, .value m.comments) := by
    simp only [GS.step, GS.explainLastMove, hm, List.getLast?_concat]
  have ha : asks .explainLastMove args = false := by cases args <;> rfl
  rw [hs] at h1 h2
  rw [ha] at h1
  refine Prod.ext ?_ h1
  rw [h2 _ rfl, hc]
  have : "chosen at random from ".toList ++ strInt k ++ " choices".toList = Py.join [' '] ["chosen".toList, "at".toList, "random".toList, "from".toList, strInt k, "choices".toList] := by
    simp [Py.join]
  rw [this, clean_good_id (good_join ?_)]
  intro w hw
  simp only [List.mem_cons, List.not_mem_nil, or_false] at hw
  rcases hw with rfl | rfl | rfl | rfl | rfl | rfl
  · decide +kernel
  · decide +kernel
  · decide +kernel
  · decide +kernel
  · exact word_strInt k
  · decide +kernel

/-- C103: gomill-resign_p sets the probability of resigning; or it fails and nothing changes. -/
theorem C103_resign_p {e : Session.Eng H (App ν)} (h : Reached W e) (args : List Str) :
    (∀ x rest f, args = x :: rest → W.readFloat x = some f → e.run (call W) "gomill-resign_p".toList args = ((false, [], false), { e with app := { e.app with resignP := f } })) ∧
    ((args = [] ∨ ∃ x rest, args = x :: rest ∧ W.readFloat x = none) → ∃ text, e.run (call W) "gomill-resign_p".toList args = ((true, text, false), e)) := by
  have hg := h.good
  obtain ⟨h1, h2, h3⟩ := run_custom (W := W) (e := e) (cmd := "gomill-resign_p".toList) (h := .resignP) (by rw [hg.table]; decide +kernel) hg.fatal args
  constructor
  · rintro x rest f rfl hf
    have hh : handle W .resignP (x :: rest) e.app = (.value none, { e.app with resignP := f }) := by simp only [handle, handleResignP, hf]
    rw [hh] at h1 h2
    exact Prod.ext (h2 _ rfl) h1
  · rintro (rfl | ⟨x, rest, rfl, hf⟩)
    · obtain ⟨t, h⟩ := h3 (.inl ⟨_, rfl⟩)
      exact ⟨t, Prod.ext h h1⟩
    · have hh : handle W .resignP (x :: rest) e.app = (.gtpError ("invalid float: '".toList ++ x ++ "'".toList), e.app) := by simp only [handle, handleResignP, hf]
      rw [hh] at h1 h3
      obtain ⟨t, h⟩ := h3 (.inl ⟨_, rfl⟩)
      exact ⟨t, Prod.ext h h1⟩

/-- C103: with a probability of 1 or more it always resigns, and with 0 or less it never does. -/
theorem C103_extremes (hW : Fair W) {e : Session.Eng H (App ν)} {n : Nat} {col : Colour} {reg : Bool} {points : List Pt} {x : (Bool × Str × Bool) × Session.Eng H (App ν)}
    (h : Generated W n e col reg points x) : (1 ≤ e.app.resignP → x.1 = (false, "resign".toList, false)) ∧ (e.app.resignP ≤ 0 → ∃ p ∈ points, x.1 = (false, moveWord (some p), false)) := by
  obtain ⟨h0, h1⟩ := hW.random e.app.world
  cases h with
  | resign hr => exact ⟨fun _ => rfl, fun hz => absurd (lt_of_lt_of_le hr hz) (not_lt.2 h0)⟩
  | chosen p k w gs hr hch hp _ _ => exact ⟨fun ho => absurd (lt_of_lt_of_le h1 ho) (not_lt.2 hr), fun _ => ⟨p, List.mem_of_getElem? hp, rfl⟩⟩

/-- C103: nothing sent to the engine makes any of the commands of its Gtp_state break: the answer is a success just when the command should succeed, and otherwise an
error which doesn't end the session. -/
theorem C103_answers (hW : Fair W) {e : Session.Eng H (App ν)} (h : Reached W e) {n : Nat} (hn : e.app.gs.boardSize = n) {cmd : Str} {c : Cmd}
    (hc : stateHandlers.lookup cmd = some (.custom (.state c))) (args : List Str) :
    ((e.run (call W) cmd args).1.1 = false ↔ Succeeds (envOf W e.app) n e.app.gs c args) ∧
    (¬ Succeeds (envOf W e.app) n e.app.gs c args → ∃ m, (e.app.gs.step (envOf W e.app) c args).2 = .gtpError m) ∧
    (e.run (call W) cmd args).1.2.2 = false := by
  have hg := h.good
  have hi := hg.lived.inv_of hn
  have hl : table.lookup cmd = some (.custom (.state c)) := by
    unfold table playerHandlers
    rw [List.lookup_append, List.lookup_append, hc]
    have hne : ∀ x ∈ ["name".toList, "version".toList, "gomill-resign_p".toList], (cmd == x) = false := by
      intro x hx
      rw [beq_eq_false_iff_ne]
      rintro rfl
      simp only [List.mem_cons, List.not_mem_nil, or_false] at hx
      rcases hx with rfl | rfl | rfl
      · have : stateHandlers.lookup "name".toList = none := by decide +kernel
        rw [this] at hc
        cases hc
      · have : stateHandlers.lookup "version".toList = none := by decide +kernel
        rw [this] at hc
        cases hc
      · have : stateHandlers.lookup "gomill-resign_p".toList = none := by decide +kernel
        rw [this] at hc
        cases hc
    rw [List.lookup_cons, hne _ (by simp), List.lookup_cons, hne _ (by simp), List.lookup_cons, hne _ (by simp)]
    rfl
  obtain ⟨_, h2, h3⟩ := run_state (W := W) hg hl args
  have hb : ¬ Breaks (envOf W e.app) n e.app.gs c args := by
    have hnn : ∀ claim reg col, ¬ Nonsense n claim reg ((envOf W e.app).generate (e.app.gs.gameState col reg) col) := by
      intro claim reg col hx
      change Nonsense n claim reg (genmove W e.app.resignP e.app.gs.board e.app.world).1 at hx
      rcases genmove_cases hW e.app.resignP (by have := hi.two; omega : 1 ≤ n) hi.board.inv e.app.world with ⟨_, hgen⟩ | ⟨_, k, w', p, _, hp, hgen⟩
      · rw [hgen] at hx
        rcases hx with hx | ⟨r, hr, _, hres, _⟩
        · cases hx
        · cases hr; cases hres
      · rw [hgen] at hx
        have hpe := (mem_empties hi.board.inv p).1 (List.mem_of_getElem? hp)
        have hpb : OnBoard 25 p := by rcases sizes hg.lived with h | h | h <;> (have := hpe.1; unfold OnBoard at *; omega)
        rcases hx with hx | ⟨r, hr, _, _, _, hm | ⟨q, hq, hx | ⟨_, hx⟩⟩⟩
        · cases hx
        · cases hr; cases hm
        · cases hr; cases hq; exact hx hpb
        · cases hr; cases hq; exact hx hpe.1
    intro hx
    cases hx with
    | genmove _ h => exact hnn _ _ _ h
    | genmoveEx _ h => exact hnn _ _ _ h
    | regGenmove _ h => exact hnn _ _ _ h
    | placeFreeHandicap _ _ _ _ h => rcases sizes hg.lived with h' | h' | h' <;> omega
  rcases verdict (env := envOf W e.app) hi c args with ⟨h4, _, r, h6⟩ | ⟨h4, _⟩ | ⟨h4, _, m, h6⟩
  · rw [h2 _ h6]
    exact ⟨⟨fun _ => h4, fun _ => rfl⟩, fun hx => absurd h4 hx, rfl⟩
  · exact absurd h4 hb
  · obtain ⟨t, h7⟩ := h3 (.inl ⟨m, h6⟩)
    rw [h7]
    exact ⟨⟨fun hx => (nomatch hx), fun hx => absurd hx h4⟩, fun _ => ⟨m, h6⟩, rfl⟩

/-! ### Sessions -/

theorem files_steady (hf : FilesUsable W) (a : App ν) : Steady (envOf W a) [9, 13, 19] :=
  C94_steady _ _ (.inr (.inr (fun path text game h1 h2 h3 => hf a.world path text game h1 h2 (by simpa using h3))))

/-- A failing command doesn't change the size of the board. -/
theorem run_size (hf : FilesUsable W) {e : Session.Eng H (App ν)} (he : Good e) (cmd : Str) (args : List Str) (herr : (e.run (call W) cmd args).1.1 = true) :
    (e.run (call W) cmd args).2.app.gs.boardSize = e.app.gs.boardSize := by
  cases hl : table.lookup cmd with
  | none =>
    have hl' : e.handlers.lookup cmd = none := by rw [he.table]; exact hl
    rw [(C92_outcomes (call W) e e cmd args .name).1 hl']
  | some h =>
    have hl' : e.handlers.lookup cmd = some h := by rw [he.table]; exact hl
    rcases lookup_cases cmd h hl with ⟨c, rfl⟩ | ⟨rfl, rfl⟩ | rfl | rfl | rfl
    · obtain ⟨h1, h2, h3⟩ := run_custom (W := W) hl' he.fatal args
      have hm : ∀ r, (handle W c args e.app).1 ≠ .value r := by
        intro r hr
        rw [h2 r hr] at herr
        cases herr
      rw [h1]
      cases c with
      | state c => exact files_steady hf e.app e.app.gs he.lived c args (fun ⟨r, hr⟩ => hm r hr)
      | showboard => rfl
      | savesgf => show (e.app.gs.savesgf (saveEnvOf W e.app) args).1.1.boardSize = _; rw [(C56_outcomes _ _ _).1]
      | name => rfl
      | version => rfl
      | resignP =>
        show (handleResignP W args e.app).2.gs.boardSize = _
        unfold handleResignP
        split
        · rfl
        · split <;> rfl
    · rw [(C92_protocol (call W) e _ args).2.1 hl']
    · rw [(C92_protocol (call W) e _ args).1 hl']
    · simp only [Session.Eng.run, Session.Eng.doCommand, hl', Session.Handler.call]
    · simp only [Session.Eng.run, Session.Eng.doCommand, hl', Session.Handler.call]

theorem Reached.run (hf : FilesUsable W) {e : Session.Eng H (App ν)} (h : Reached W e) (cmd : Str) (args : List Str) : Reached W (e.run (call W) cmd args).2 :=
  .command (err := (e.run (call W) cmd args).1.1) (text := (e.run (call W) cmd args).1.2.1) (fin := (e.run (call W) cmd args).1.2.2) h rfl (run_size hf h.good cmd args)

/-- C103: in a session, whatever is sent and whatever becomes of the output, each answer written is the answer to one of the lines read, by the engine in a state to which
the theorems above apply; so they do to the state it's left in; and the session only ends before the end of the input when told to quit, or if an answer can't be written. -/
theorem C103_session (hf : FilesUsable W) {ω : Type} {write : Str → ω → Option FileExc × ω} {flush : ω → Option FileExc × ω} {e e' : Session.Eng H (App ν)} {d d' : ω}
    {lines unread : List Str} {evs : List Ev} {st : Session.Status} (h0 : Reached W e) (ht : Talk (Session.Eng.run (call W)) write flush e d lines evs st e' d' unread) :
    Reached W e' ∧
    (∀ r, Ev.write r ∈ evs → ∃ (line command : Str) (id : Option Str) (args : List Str) (x : Session.Eng H (App ν)), line ∈ lines ∧ Asks line id command args ∧ Reached W x ∧
      r = Spec.responseText (x.run (call W) command args).1.1 id (x.run (call W) command args).1.2.1) ∧
    (st = .returned → unread = [] ∨ ∃ line id args, line ∈ lines ∧ Asks line id "quit".toList args) := by
  induction ht with
  | eof => exact ⟨h0, by simp, fun _ => .inl rfl⟩
  | skip _ _ ih =>
    obtain ⟨h1, h2, h3⟩ := ih h0
    refine ⟨h1, fun r hr => ?_, fun hs => ?_⟩
    · rcases List.mem_cons.1 hr with hr | hr
      · exact nomatch hr
      · obtain ⟨line, command, id, args, x, h3, h4⟩ := h2 r hr
        exact ⟨line, command, id, args, x, List.mem_cons_of_mem _ h3, h4⟩
    · rcases h3 hs with h | ⟨line, id, args, h4, h5⟩
      · exact .inl h
      · exact .inr ⟨line, id, args, List.mem_cons_of_mem _ h4, h5⟩
  | @answer e e1 e' d d1 d2 d' line c text id args err rest unread evs st ha hrun _ _ _ ih =>
    have hl := Reached.run hf h0 c args
    rw [hrun] at hl
    obtain ⟨h1, h2, h3⟩ := ih hl
    refine ⟨h1, fun r hr => ?_, fun hs => ?_⟩
    · rcases List.mem_cons.1 hr with hr | hr
      · exact nomatch hr
      · rcases List.mem_cons.1 hr with hr | hr
        · injection hr with hr
          exact ⟨line, c, id, args, e, by simp, ha, h0, by rw [hrun]; exact hr⟩
        · rcases List.mem_cons.1 hr with hr | hr
          · exact nomatch hr
          · obtain ⟨line, command, id, args, x, h3, h4⟩ := h2 r hr
            exact ⟨line, command, id, args, x, List.mem_cons_of_mem _ h3, h4⟩
    · rcases h3 hs with h | ⟨line, id, args, h4, h5⟩
      · exact .inl h
      · exact .inr ⟨line, id, args, List.mem_cons_of_mem _ h4, h5⟩
  | @quit e e1 d d1 d2 line c text id args err rest ha hrun _ _ =>
    have hl := Reached.run hf h0 c args
    have hq := (run_good (W := W) h0.good c args (run_size hf h0.good c args)).2
    rw [hrun] at hl hq
    refine ⟨hl, fun r hr => ?_, fun _ => .inr ⟨line, id, args, by simp, (hq.1 rfl) ▸ ha⟩⟩
    have hr : r = Spec.responseText err id text := by simpa using hr
    exact ⟨line, c, id, args, e, by simp, ha, h0, by rw [hrun]; exact hr⟩
  | @noWrite e e1 d d1 line c text id args err fin rest x y ha hrun _ _ =>
    have hl := Reached.run hf h0 c args
    rw [hrun] at hl
    refine ⟨hl, fun r hr => ?_, fun h => nomatch h⟩
    have hr : r = Spec.responseText err id text := by simpa using hr
    exact ⟨line, c, id, args, e, by simp, ha, h0, by rw [hrun]; exact hr⟩
  | @noFlush e e1 d d1 d2 line c text id args err fin rest x y ha hrun _ _ _ =>
    have hl := Reached.run hf h0 c args
    rw [hrun] at hl
    refine ⟨hl, fun r hr => ?_, fun h => nomatch h⟩
    have hr : r = Spec.responseText err id text := by simpa using hr
    exact ⟨line, c, id, args, e, by simp, ha, h0, by rw [hrun]; exact hr⟩

/-- C103: the program can always be started, and `main` is such a session. -/
theorem C103_main (hf : FilesUsable W) {ω : Type} (write : Str → ω → Option FileExc × ω) (flush : ω → Option FileExc × ω) (w : ν) (d : ω) {inp : Str} {lines : List Str}
    (hl : IsLines inp lines) (rl : Readline) : ∃ e, makeEngine w = .ok e ∧ Reached W e ∧ ∃ evs st e' d' unread,
      Talk (Session.Eng.run (call W)) write flush e d lines evs st e' d' unread ∧ ∀ n, lines.length < n →
        main W write flush false n w inp d rl = .ok ({ engine := e', src := unread.flatten, dst := d', events := evs, status := st }, rl) := by
  have hi : (GS.init [9, 13, 19]).toOption.isSome = true := by decide +kernel
  cases hs : GS.init [9, 13, 19] with
  | error x => rw [hs] at hi; cases hi
  | ok s =>
    obtain ⟨e, he⟩ : ∃ e, makeEngine w = .ok e := by unfold makeEngine; rw [hs]; exact ⟨_, rfl⟩
    refine ⟨e, he, .start he, ?_⟩
    obtain ⟨⟨evs, st, e', d', unread, ht⟩, h2⟩ := C92_session (Session.Eng.run (call W)) write flush e d hl
    refine ⟨evs, st, e', d', unread, ht, fun n hn => ?_⟩
    unfold main
    rw [he]
    simp only [(C92_interactive (call W) write flush n e inp d rl).1, h2 evs st e' d' unread ht n hn]

/-! ### A concrete case -/

/-- A world with no files to read, in which random.random() gives 1/2 and random.choice() the first, then the second, and so on. -/
def exampleWorld : World Nat where
  random := fun w => (1/2, w)
  choice := fun k w => (if w < k then w else 0, w + 1)
  file := fun _ _ => none
  write := fun _ _ w => some w
  readFloat := fun s => if s = "0.6".toList then some (6/10) else none
  codec := fun _ => true
  encodings := Sgf.exampleEncodings
  floats := Sgf.exampleFloats
  version := "1".toList
  date := fun _ => "2020-01-01".toList

theorem exampleWorld_fair : Fair exampleWorld where
  random := fun w => by show (0 : Rat) ≤ 1/2 ∧ (1/2 : Rat) < 1; norm_num
  choice := fun k w hk => by show (if w < k then w else 0) < k; split <;> omega

/-- C103: the hypotheses can be met, and what a session looks like. -/
theorem C103_witness :
    (Fair exampleWorld ∧ FilesUsable exampleWorld) ∧
    (main exampleWorld (fun s w => (none, w ++ s)) (fun w => (none, w)) false 20 0
        "genmove b\n1 genmove w\ngomill-explain_last_move\nreg_genmove b\n3 reg_genmove purple\nplay b A1\ngomill-resign_p 0.6\ngomill-resign_p x\ngenmove w\nboardsize 10\nundo\nundo\nundo\nquit\nname\n".toList [] ⟨none, [], false⟩).toOption.map
      (fun r => (r.1.dst, r.1.status)) =
      some ("= A1\n\n=1 C1\n\n= chosen at random from 80 choices\n\n= E1\n\n?3 invalid colour\n\n? illegal move\n\n=\n\n? invalid float: 'x'\n\n= resign\n\n? unacceptable size\n\n=\n\n=\n\n? cannot undo\n\n=\n\n".toList, .returned) := by
  refine ⟨⟨exampleWorld_fair, fun _ _ _ _ h => nomatch h⟩, ?_⟩
  decide +kernel

end Gomill.Gtp.Stateful
