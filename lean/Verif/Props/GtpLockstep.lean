import Verif.Lemmas.GtpLockstep
import Verif.Props.GtpProxy
import Verif.Lemmas.AsciiBoard
/-
C64: engines made from Gtp_states stay in step with the game (gomill/gtp_games.py, gtp_controller.py, gtp_engine.py, gtp_states.py together).
-/
namespace Gomill.Gtp
open Py Go Spec

variable {ρ τ : Type}

/-- The state of an engine which knows the game, with the invariant of Gtp_states. -/
structure Knows (n : Nat) (start : Position) (h : List Mv) (s : GS) : Prop where
  inv : Inv n s
  base : s.base.pos = start
  moves : mvs s.history = h

theorem Knows.inStep {n : Nat} {start : Position} {h : List Mv} {s : GS} (k : Knows n start h s) : InStep n start h s := by
  obtain ⟨ko, pl, h1, h2, h3⟩ := k.inv.rep
  obtain ⟨_, hp, _, hko, _⟩ := replayK_rules k.inv.base s.history _ _ _ h1
  rw [k.base, k.moves] at hp hko
  rw [k.moves] at h3
  refine ⟨k.inv.size, k.base, k.moves, hp, ?_⟩
  rintro l d q p rfl hk
  obtain ⟨hk1, hk2⟩ := (hko p d.opponent).2 ⟨l, q, [], by rw [opp_opp], (fun _ hm => nomatch hm), by rw [opp_opp]; exact hk⟩
  have hk3 := h3 not_ends_stone
  have hk4 : s.koPlayer = some d.opponent := by
    rcases h2 with h2 | h2
    · rw [hk3, hk1] at h2; cases h2
    · rw [h2.2, hk2]
  unfold GS.gameState
  simp only
  rw [if_pos (And.intro (by rw [hk3, hk1]; exact fun hh => nomatch hh) hk4), hk3, hk1]

theorem Knows.moved {n : Nat} {start : Position} {h : List Mv} {s s' : GS} (k : Knows n start h s) {m : HistMove} (hm : Moved n s s' m) :
    Knows n start (h ++ [(m.colour, m.move)]) s' := by
  refine ⟨hm.inv, ?_, ?_⟩
  · rw [hm.frame]; exact k.base
  · rw [hm.hist, ← k.moves]
    unfold mvs
    rw [List.map_append]
    rfl

/-- What the engines know. -/
def Lockstep (n : Nat) (start : Position) (o : Bool) (ph : Phase) (env : GEnv (Internal (GS × ρ)) τ) : Prop :=
  ∃ G, GCEng o G env.gc ∧ ∀ c, Knows n start (knownBy c ph) (G c)

theorem Lockstep.keep {n : Nat} {start : Position} {o : Bool} {ph : Phase} {env env' : GEnv (Internal (GS × ρ)) τ} (h : Lockstep n start o ph env)
    (hk : ∀ G, GCEng o G env.gc → GCEng o G env'.gc) : Lockstep n start o ph env' := by
  obtain ⟨G, h1, h2⟩ := h
  exact ⟨G, hk _ h1, h2⟩

/-! ### What the engines reply -/

theorem run_value (t : Option Str) (fatal : Bool) (command : Str) (args : List Str) :
    Engine.runCommand ⟨fun _ => some (fun _ => .value t), fatal⟩ command args = (false, cleanResponse t, false) := rfl

theorem run_failed {o : Outcome} (ho : (∃ m, o = .gtpError m) ∨ ∃ m, o = .exception m) (fatal : Bool) (command : Str) (args : List Str) :
    (Engine.runCommand ⟨fun _ => some (fun _ => o), fatal⟩ command args).1 = true := by
  rcases ho with ⟨m, rfl⟩ | ⟨m, rfl⟩
  · rfl
  · unfold Engine.runCommand Engine.doCommand
    cases fatal <;> rfl

theorem word_not_space {c : Char} (h : isWordChar c = true) : isSpace c = false ∧ ¬ Spec.IsControl c ∧ c ≠ '\t' ∧ c ≠ '\n' := by
  have hn : 0x21 ≤ c.toNat ∧ c.toNat ≠ 0x7f := by
    unfold isWordChar at h
    simp only [Bool.or_eq_true, Bool.and_eq_true, decide_eq_true_eq] at h
    omega
  have key : ∀ d : Char, d.toNat ≤ 0x20 → c ≠ d := by
    rintro d hd rfl
    omega
  have ht := key '\t' (by decide)
  have hl := key '\n' (by decide)
  refine ⟨?_, ?_, ht, hl⟩
  · unfold isSpace
    have h1 := key ' ' (by decide)
    have h2 := key '\r' (by decide)
    have h3 := key (Char.ofNat 11) (by decide)
    have h4 := key (Char.ofNat 12) (by decide)
    simp_all
    omega
  · rintro ⟨h1, _, _⟩
    omega

theorem good_word {w : Str} (h : isWellFormedWord w = true) : Good w := by
  unfold isWellFormedWord at h
  simp only [ne_eq, decide_not, Bool.and_eq_true, List.all_eq_true] at h
  have hc := fun c hc => word_not_space (h.2 c hc)
  refine ⟨fun c hm => (hc c hm).2.1, fun hm => (hc _ hm).2.2.1 rfl, ?_, fun c hl => (hc c (List.mem_of_getLast? hl)).1⟩
  rintro ⟨a, b, hab⟩
  exact (hc '\n' (by rw [← hab]; simp [show "\n\n".toList = ['\n', '\n'] from rfl])).2.2.2 rfl

theorem clean_word {w : Str} (h : isWellFormedWord w = true) : cleanResponse (some w) = w := clean_good_id (good_word h)

theorem run_state (P : StateEngine ρ) {command : Str} {c : Cmd} (hl : stateCommands.lookup command = some c) (s : GS) (w : ρ) (args : List Str) :
    P.run (s, w) command args = (Engine.runCommand ⟨fun _ => some (fun _ => (s.step (P.env w) c args).2), P.fatal⟩ command args,
      ((s.step (P.env w) c args).1, P.next w s command args)) := by
  unfold StateEngine.run
  rw [hl]

theorem colour_isColour (c : Colour) : IsColour (colourWord c) c := by
  cases c
  · exact .inl ⟨rfl, .inl (by decide +kernel)⟩
  · exact .inr ⟨rfl, .inl (by decide +kernel)⟩

theorem ask_lookup (ex : Bool) (c : Colour) : ∃ cmd extra, stateCommands.lookup (askCommand ex c).1 = some cmd ∧ (askCommand ex c).2 = colourWord c :: extra ∧
    genmoveKind cmd extra = some (ex, false) := by
  cases ex with
  | true => exact ⟨.genmoveEx, ["claim".toList], (by decide +kernel : stateCommands.lookup "gomill-genmove_ex".toList = some .genmoveEx), rfl, by decide +kernel⟩
  | false => exact ⟨.genmove, [], (by decide +kernel : stateCommands.lookup "genmove".toList = some .genmove), rfl, rfl⟩

/-- What an engine does when it is asked for a move. -/
theorem asked_run (P : StateEngine ρ) {n : Nat} (hn : n ≤ 25) {start : Position} {h : List Mv} {s : GS} (k : Knows n start h s) (w : ρ) (ex : Bool) (c : Colour) :
    let x := P.run (s, w) (askCommand ex c).1 (askCommand ex c).2
    (x.1.1 = true ∧ x.2.1 = s ∧ ∀ msg, Chooses n (replay n start h) ex ((P.env w).generate (s.gameState c false) c) (.forfeit msg)) ∨
    (x.1.1 = false ∧ ∃ act, Answers ex n x.1.2.1 act ∧ Chooses n (replay n start h) ex ((P.env w).generate (s.gameState c false) c) act ∧
      ((∃ m, act = .move m ∧ Knows n start (h ++ [(c, m)]) x.2.1) ∨ (act = .resign ∨ act = .claim) ∧ x.2.1 = s)) := by
  obtain ⟨cmd, extra, hl, harg, hkind⟩ := ask_lookup ex c
  have hpos := k.inStep.pos
  have hans := genmove_answer (env := P.env w) (claim := ex) (fr := false) k.inv (colour_isColour c)
  have hgen := genmove_spec (n := n) (env := P.env w) (s := s) (args := [colourWord c]) (fr := false) (ac := ex) k.inv (Prod.eta _).symm
  rw [← step_genmove hkind] at hans
  rw [← step_genmove hkind] at hgen
  rw [harg]
  simp only [run_state P hl]
  generalize s.step (P.env w) cmd (colourWord c :: extra) = y at hans hgen ⊢
  obtain ⟨s', out⟩ := y
  simp only at hans hgen ⊢
  have hmove : ∀ m cm ck, s'.history = s.history ++ [⟨c, m, cm, ck⟩] → Knows n start (h ++ [(c, m)]) s' := by
    intro m cm ck hh
    rcases hgen with rfl | ⟨_, _, m', hm'⟩
    · exact absurd hh (by simp)
    · have h1 := k.moved hm'
      have : m' = ⟨c, m, cm, ck⟩ := by
        have h2 := hm'.hist
        rw [hh] at h2
        exact (List.singleton_inj.1 (List.append_inj' h2 rfl).2).symm
      rw [this] at h1
      exact h1
  unfold AnswerSpec at hans
  cases hg : (P.env w).generate (s.gameState c false) c with
  | none =>
    rw [hg] at hans
    obtain ⟨rfl, rfl⟩ := hans
    exact .inl ⟨run_failed (.inr ⟨_, rfl⟩) _ _ _, rfl, fun msg => .failed msg⟩
  | some g =>
    rw [hg] at hans
    simp only at hans
    by_cases h1 : ex = true ∧ g.claim = true
    · rw [if_pos h1] at hans
      obtain ⟨rfl, rfl⟩ := hans
      refine .inr ⟨rfl, .claim, ?_, .claim g h1.1 h1.2, .inr ⟨.inr rfl, rfl⟩⟩
      rw [run_value]
      exact .claim h1.1 (by decide +kernel)
    · rw [if_neg h1] at hans
      by_cases h2 : g.resign = true
      · rw [if_pos h2] at hans
        obtain ⟨rfl, rfl⟩ := hans
        refine .inr ⟨rfl, .resign, ?_, .resign g h1 h2, .inr ⟨.inl rfl, rfl⟩⟩
        rw [run_value]
        exact .resign (by decide +kernel)
      · rw [if_neg h2] at hans
        have h2' : g.resign = false := by simpa using h2
        by_cases h3 : g.passMove = true
        · rw [if_pos h3] at hans
          obtain ⟨rfl, hs'⟩ := hans
          rw [if_neg (by decide)] at hs'
          refine .inr ⟨rfl, .move none, ?_, .pass g h1 h2' h3, .inl ⟨none, rfl, hmove none g.comments g.cookie (by rw [hs'])⟩⟩
          rw [run_value]
          refine .move none ?_
          exact (C14_pass_characterisation _ _).2 ⟨⟨by have := k.inv.two; omega, by omega⟩, by decide +kernel⟩
        · rw [if_neg h3] at hans
          have h3' : g.passMove = false := by simpa using h3
          cases hm : g.move with
          | none =>
            rw [hm] at hans
            obtain ⟨rfl, rfl⟩ := hans
            exact .inl ⟨run_failed (.inr ⟨_, rfl⟩) _ _ _, rfl, fun msg => .bad g msg h1 h2' h3' (fun p hp => by rw [hm] at hp; cases hp)⟩
          | some p =>
            rw [hm] at hans
            simp only at hans
            have off : ∀ msg, ¬ (OnBoard n p ∧ s.board.pos p = none) → Chooses n (replay n start h) ex (some g) (.forfeit msg) := by
              intro msg hp
              refine .bad g msg h1 h2' h3' (fun q hq => ?_)
              rw [hm] at hq
              cases hq
              rw [← hpos]
              exact hp
            rcases hans with ⟨hb, rfl, rfl⟩ | ⟨v, hv, hrest⟩
            · refine .inl ⟨run_failed (.inr ⟨_, rfl⟩) _ _ _, rfl, fun msg => off msg (fun hp => hb ?_)⟩
              obtain ⟨⟨a1, a2, a3, a4⟩, _⟩ := hp
              exact ⟨a1, by omega, a3, by omega⟩
            · rw [if_neg (by decide)] at hrest
              rcases hrest with ⟨hb, rfl, rfl⟩ | ⟨hb, he, rfl, rfl⟩ | ⟨hb, he, rfl, _, hs'⟩
              · exact .inl ⟨run_failed (.inr ⟨_, rfl⟩) _ _ _, rfl, fun msg => off msg (fun hp => hb hp.1)⟩
              · exact .inl ⟨run_failed (.inl ⟨_, rfl⟩) _ _ _, rfl, fun msg => off msg (fun hp => he hp.2)⟩
              · refine .inr ⟨rfl, .move (some p), ?_, .play g p h1 h2' h3' hm hb (by rw [← hpos]; exact he),
                  .inl ⟨some p, rfl, hmove (some p) g.comments g.cookie (by rw [hs'])⟩⟩
                rw [run_value, clean_word (word_formatVertex hv)]
                refine .move (some p) ?_
                obtain ⟨v', hv', _, hr⟩ := C13_vertex_round_trip n hn p hb
                rw [hv] at hv'
                cases hv'
                exact hr _ rfl

/-- What an engine does when it is told of a move it can follow. -/
theorem told_run (P : StateEngine ρ) {n : Nat} (hn : n ≤ 25) {start : Position} {h : List Mv} {s : GS} (k : Knows n start h s) (w : ρ) (c : Colour) (m : Option Pt)
    (hm : ∀ p, m = some p → OnBoard n p ∧ replay n start h p = none) :
    let x := P.run (s, w) "play".toList [colourWord c, moveWord m]
    x.1.1 = false ∧ Knows n start (h ++ [(c, m)]) x.2.1 := by
  have hl : stateCommands.lookup "play".toList = some .play := by decide +kernel
  simp only [run_state P hl]
  have hspec := play_spec (args := [colourWord c, moveWord m]) k.inv (Prod.eta _).symm
  have hv : moveFromVertex (moveWord m) n = .ok m := by
    cases m with
    | none => exact (C14_pass_characterisation _ _).2 ⟨⟨by have := k.inv.two; omega, by omega⟩, by decide +kernel⟩
    | some p =>
      obtain ⟨v', hv', _, hr⟩ := C13_vertex_round_trip n hn p (hm p rfl).1
      rw [moveWord_format hn (m := some p) (fun q hq => by cases hq; exact (hm p rfl).1)] at hv'
      cases hv'
      exact hr _ rfl
  have hok : (s.play [colourWord c, moveWord m]).2 = .value none := by
    unfold GS.play
    simp only [(C62_colour _ _).2 (colour_isColour c)]
    unfold interpretVertex
    rw [k.inv.size, hv]
    cases m with
    | none => rfl
    | some p =>
      obtain ⟨row, col⟩ := p
      simp only
      obtain ⟨ko, b', h5, _⟩ := C06_play_follows_rules k.inv.board defaultPops (row, col) c (hm _ rfl).1 (by rw [k.inStep.pos]; exact (hm _ rfl).2)
      have h5' : s.board.play row col c = .ok (ko, b') := h5
      rw [h5']
  have hstep : s.step (P.env w) .play [colourWord c, moveWord m] = s.play [colourWord c, moveWord m] := rfl
  rw [hstep]
  rcases hspec with ⟨hf, _⟩ | ⟨_, c', v, r, col, m', h1, h2, h3, h4⟩
  · exact absurd hok (fun hh => hf ⟨_, hh⟩)
  · refine ⟨by rw [hok]; rfl, ?_⟩
    cases h1
    rw [(C62_colour _ _).2 (colour_isColour c)] at h2
    cases h2
    rw [hv] at h3
    cases h3
    exact k.moved h4

/-! ### During the game -/

variable {P : Colour → StateEngine ρ} {cfg : GtpCfg τ} {o : Bool}

theorem genmove_value {σ : Type} (C : Colour → Channel σ) (cfg : GtpCfg τ) (c : Colour) (ex : Bool) (env : GEnv σ τ) {raw : Str} {gc' : GC σ}
    (h : env.gc.send C c (askCommand ex c).1 (askCommand ex c).2 = (.ok raw, gc')) :
    ∃ act, genmove C cfg c ex env = (.ok act, { env with gc := gc' }) ∧ Answers ex cfg.boardSize raw act := by
  have hcmd : (if ex then "gomill-genmove_ex".toList else "genmove".toList) = (askCommand ex c).1 := by cases ex <;> rfl
  have harg : (if ex then [colourWord c, "claim".toList] else [colourWord c]) = (askCommand ex c).2 := by cases ex <;> rfl
  unfold genmove
  simp only [hcmd, harg]
  rw [h]
  simp only
  by_cases h1 : lower raw = "resign".toList
  · rw [if_pos h1]; exact ⟨_, rfl, .resign h1⟩
  · rw [if_neg h1]
    by_cases h2 : ex = true ∧ lower raw = "claim".toList
    · rw [if_pos h2]; exact ⟨_, rfl, .claim h2.1 h2.2⟩
    · rw [if_neg h2, moveFromVertex_lower]
      cases hm : moveFromVertex raw cfg.boardSize with
      | ok m => exact ⟨_, rfl, .move m hm⟩
      | error e => exact ⟨_, rfl, .illFormed h1 (fun hx hl => h2 ⟨hx, hl⟩) (fun m hm' => by rw [hm] at hm'; cases hm')⟩

theorem genmove_failure {σ : Type} (C : Colour → Channel σ) (cfg : GtpCfg τ) (c : Colour) (ex : Bool) (env : GEnv σ τ) {e : CExc} {gc' : GC σ}
    (h : env.gc.send C c (askCommand ex c).1 (askCommand ex c).2 = (.error e, gc')) :
    (∀ m t, e = .badResponse m t → genmove C cfg c ex env = (.ok (.forfeit m), { env with gc := gc' })) ∧
    ((∀ m t, e ≠ .badResponse m t) → genmove C cfg c ex env = (.error e.toG, { env with gc := gc' })) := by
  have hcmd : (if ex then "gomill-genmove_ex".toList else "genmove".toList) = (askCommand ex c).1 := by cases ex <;> rfl
  have harg : (if ex then [colourWord c, "claim".toList] else [colourWord c]) = (askCommand ex c).2 := by cases ex <;> rfl
  unfold genmove
  simp only [hcmd, harg]
  rw [h]
  refine ⟨?_, ?_⟩
  · rintro m t rfl; rfl
  · intro hne
    cases e with
    | badResponse m t => exact absurd rfl (hne m t)
    | channel _ => rfl
    | value => rfl
    | channelIsClosed => rfl

theorem knownBy_none (d : Colour) (h : List Mv) (c : Colour) : knownBy d (.asked h c none) = h := by
  unfold knownBy
  simp

theorem knownBy_own (c : Colour) (h : List Mv) (m : Option Pt) : knownBy c (.asked h c (some m)) = h ++ [(c, m)] := if_pos rfl

theorem knownBy_other {c d : Colour} (hd : d ≠ c) (h : List Mv) (m : Option (Option Pt)) : knownBy d (.asked h c m) = h := if_neg (fun hh => hd hh.symm)

theorem genmove_lock (hn : cfg.boardSize ≤ 25) {start : Position} {h : List Mv} {c : Colour} {ex : Bool} {env : GEnv (Internal (GS × ρ)) τ}
    (hj : Lockstep cfg.boardSize start false (.told h) env) (hex : ex = true → cfg.claimAllowed c = true) :
    AskPost (Lockstep cfg.boardSize start false) (fun act => Answered (P c).env cfg.boardSize start (cfg.claimAllowed c) h c act) h c
      (genmove (engines P) cfg c ex env) := by
  obtain ⟨G, hg, hk⟩ := hj
  have hs := send_eng (P := P) hg c (gameName_word _ (ask_words ex c).1) (ask_words ex c).2
  have hother : ∀ d, d ≠ c → ∀ m, knownBy d (.asked h c m) = h := fun d hd m => if_neg (fun hh => hd hh.symm)
  rcases hx : env.gc.send (engines P) c (askCommand ex c).1 (askCommand ex c).2 with ⟨x, gc'⟩
  rw [hx] at hs
  rcases hs with ⟨e, rfl, h2, h3⟩ | ⟨w, h1, h2, h3⟩
  · rcases h3 with ⟨y, rfl⟩ | ⟨hf, _⟩
    · rw [(genmove_failure (engines P) cfg c ex env hx).2 (fun _ _ hh => nomatch hh)]
      exact .inl ⟨G, h2, hk⟩
    · cases hf
  · have hrun := asked_run (P c) hn (hk c) w ex c
    rcases hrun with ⟨r1, r2, r3⟩ | ⟨r1, act, r2, r3, r4⟩
    · obtain ⟨msg, hmsg⟩ := h2 r1
      simp only at hmsg
      subst hmsg
      rw [(genmove_failure (engines P) cfg c ex env hx).1 _ _ rfl]
      rw [r2, upd_same] at h1
      refine ⟨⟨G, h1, fun d => ?_⟩, w, G c, ex, (hk c).inStep, hex, r3 msg⟩
      rw [knownBy_none]
      exact hk d
    · have hval := h3 r1
      simp only at hval
      subst hval
      obtain ⟨act', g1, g2⟩ := genmove_value (engines P) cfg c ex env hx
      have hact := C63_answers_unique ex _ _ _ _ g2 r2
      subst hact
      rw [g1]
      have hans : Answered (P c).env cfg.boardSize start (cfg.claimAllowed c) h c act' := ⟨w, G c, ex, (hk c).inStep, hex, r3⟩
      rcases r4 with ⟨m, rfl, r4⟩ | ⟨r4, r5⟩
      · refine ⟨⟨_, h1, fun d => ?_⟩, hans⟩
        by_cases hd : d = c
        · subst hd
          have e1 : knownBy d (.asked h d (some m)) = h ++ [(d, m)] := if_pos rfl
          rw [e1]
          unfold upd
          rw [if_pos rfl]
          exact r4
        · rw [hother d hd]
          unfold upd
          rw [if_neg hd]
          exact hk d
      · rw [r5, upd_same] at h1
        have key : Lockstep cfg.boardSize start false (.asked h c none) ({ env with gc := gc' } : GEnv (Internal (GS × ρ)) τ) := by
          refine ⟨G, h1, fun d => ?_⟩
          rw [knownBy_none]
          exact hk d
        rcases r4 with rfl | rfl
        · exact ⟨key, hans⟩
        · exact ⟨key, hans⟩

theorem getMove_lock (hn : cfg.boardSize ≤ 25) {start : Position} {h : List Mv} {c : Colour} {env : GEnv (Internal (GS × ρ)) τ}
    (hj : Lockstep cfg.boardSize start false (.told h) env) :
    AskPost (Lockstep cfg.boardSize start false) (fun act => Answered (P c).env cfg.boardSize start (cfg.claimAllowed c) h c act) h c
      (getMove (engines P) cfg c env) := by
  unfold getMove
  cases hcl : cfg.claimAllowed c with
  | false =>
    rw [if_neg (by decide)]
    have := genmove_lock (P := P) (c := c) (ex := false) hn hj (fun hh => nomatch hh)
    rw [hcl] at this
    exact this
  | true =>
    rw [if_pos rfl]
    obtain ⟨G, hg, hk⟩ := hj
    have h1 := gcKnown_eng (P := P) hg c (command := "gomill-genmove_ex".toList) (by decide +kernel)
    cases hx : env.gc.knownCommand (engines P) c "gomill-genmove_ex".toList with
    | mk x gc' =>
      rw [hx] at h1
      cases x with
      | error e => exact .inl ⟨G, h1, hk⟩
      | ok b =>
        simp only
        have := genmove_lock (P := P) (c := c) (ex := b) hn (env := { env with gc := gc' }) ⟨G, h1, hk⟩ (fun _ => hcl)
        rw [hcl] at this
        exact this

theorem Knows.last {n : Nat} {start : Position} {h : List Mv} {c : Colour} {m : Option Pt} {s : GS} (k : Knows n start (h ++ [(c, m)]) s) :
    ∀ p, m = some p → OnBoard n p ∧ replay n start h p = none := by
  rintro p rfl
  obtain ⟨ko, pl, h1, _⟩ := k.inv.rep
  have := (replayK_rules k.inv.base s.history _ _ _ h1).2.2.1
  rw [k.base, k.moves] at this
  exact this h c p [] rfl

theorem notifyMove_lock (hn : cfg.boardSize ≤ 25) {start : Position} {h : List Mv} {c : Colour} {m : Option Pt} {env : GEnv (Internal (GS × ρ)) τ}
    (hj : Lockstep cfg.boardSize start o (.asked h c (some m)) env) :
    TellPost (Lockstep cfg.boardSize start o) (NoObjection o) h c m (notifyMove (engines P) c.opponent m env) := by
  obtain ⟨G, hg, hk⟩ := hj
  have hkc : Knows cfg.boardSize start (h ++ [(c, m)]) (G c) := by
    have := hk c
    rw [knownBy_own] at this
    exact this
  have hko : Knows cfg.boardSize start h (G c.opponent) := by
    have := hk c.opponent
    rw [knownBy_other (opp_ne c)] at this
    exact this
  have hm := hkc.last
  unfold notifyMove
  have hf := moveWord_format hn (m := m) (fun p hp => (hm p hp).1)
  rw [hf, opp_opp]
  simp only
  have hw : ∀ a ∈ [colourWord c, moveWord m], isWellFormedWord a = true := by
    intro a ha
    simp only [List.mem_cons, List.not_mem_nil, or_false] at ha
    rcases ha with rfl | rfl
    · exact word_colour c
    · exact word_formatVertex hf
  have hs := send_eng (P := P) hg c.opponent (command := "play".toList) (args := [colourWord c, moveWord m]) (by decide +kernel) hw
  rcases hx : env.gc.send (engines P) c.opponent "play".toList [colourWord c, moveWord m] with ⟨x, gc'⟩
  rw [hx] at hs
  rcases hs with ⟨e, rfl, h2, h3⟩ | ⟨w, h1, h2, h3⟩
  · have key : Lockstep cfg.boardSize start o (.asked h c (some m)) ({ env with gc := gc' } : GEnv (Internal (GS × ρ)) τ) := ⟨G, h2, hk⟩
    rcases h3 with ⟨y, rfl⟩ | ⟨rfl, msg, rfl⟩
    · exact .inr key
    · simp only
      rw [if_neg (fun hh => nomatch hh)]
      exact ⟨⟨(fun hh => nomatch hh), fun hh => nomatch hh⟩, (fun hh => nomatch hh), .inr key⟩
  · obtain ⟨r1, r2⟩ := told_run (P c.opponent) hn hko w c m hm
    have hval := h3 r1
    simp only at hval
    subst hval
    have key : Lockstep cfg.boardSize start o (.told (h ++ [(c, m)])) ({ env with gc := gc' } : GEnv (Internal (GS × ρ)) τ) := by
      refine ⟨_, h1, fun d => ?_⟩
      unfold upd
      by_cases hd : d = c.opponent
      · subst hd
        rw [if_pos rfl]
        exact r2
      · rw [if_neg hd]
        have hdc : d = c := by cases d <;> cases c <;> first | rfl | exact absurd rfl hd
        subst hdc
        exact hkc
    exact ⟨⟨(fun hh => nomatch hh), fun _ => rfl⟩, fun _ => key, .inl key⟩

theorem lock_tracks (P : Colour → StateEngine ρ) (cfg : GtpCfg τ) (hn : cfg.boardSize ≤ 25) {b0 : Board} {first : Colour} {limit : Option Int} :
    Tracks (gtpBackend (engines P) cfg) cfg.boardSize b0 first limit (Lockstep cfg.boardSize b0.pos)
      (fun h c act => Answered (P c).env cfg.boardSize b0.pos (cfg.claimAllowed c) h c act) NoObjection where
  onBoard := by
    rintro h c p ⟨w, s, claim, _, _, hc⟩
    generalize ((P c).env w).generate (s.gameState c false) c = x at hc
    cases hc with
    | play g _ _ _ _ _ hb _ => exact hb
  endGame := by
    rintro ph env ⟨G, h1, h2⟩
    exact ⟨G, ⟨rfl, h1.ctl⟩, h2⟩
  comment := by
    intro o ph c env h
    refine h.keep fun G hg => ?_
    have hm := maybe_eng (P := P) hg c (command := "gomill-explain_last_move".toList) (by decide +kernel)
    show GCEng o G (getLastMoveComment (engines P) cfg c env).2.gc
    unfold getLastMoveComment
    cases hx : env.gc.maybeSend (engines P) c "gomill-explain_last_move".toList [] with
    | mk x gc' =>
      rw [hx] at hm
      cases x with
      | error e => exact hm
      | ok r => cases r <;> exact hm
  afterMove := by
    intro o ph c m b env h
    refine h.keep fun G hg => ?_
    show GCEng o G (afterMove cfg c m b env).2.gc
    unfold afterMove
    split <;> exact hg
  scoreGame := by
    intro ph b env h
    refine h.keep fun G hg => ?_
    show GCEng true G (scoreGame (engines P) cfg b env).2.gc
    unfold scoreGame
    split
    · split <;> exact hg
    · unfold scoreGameGtp
      have hm := askScorers_eng (P := P) cfg.scorers hg
      cases hx : askScorers (engines P) cfg.scorers env.gc with
      | mk x gc' =>
        rw [hx] at hm
        cases x with
        | error e => exact hm
        | ok raw =>
          simp only
          split <;> exact hm
  getMove := fun _ _ _ ht _ _ => getMove_lock hn ht
  notifyMove := fun _ _ _ _ _ ht _ _ => notifyMove_lock hn ht

/-! ### Setting up -/

/-- The outcome isn't one of those which end the session. -/
def Ordinary (o : Outcome) : Prop := (∃ t, o = .value t) ∨ (∃ m, o = .gtpError m) ∨ ∃ m, o = .exception m

theorem ordinary_value (t : Option Str) : Ordinary (.value t) := .inl ⟨t, rfl⟩
theorem ordinary_error (t : Str) : Ordinary (.gtpError t) := .inr (.inl ⟨t, rfl⟩)
theorem ordinary_exception (t : Str) : Ordinary (.exception t) := .inr (.inr ⟨t, rfl⟩)

theorem freeLoop_ordinary (n : Int) : ∀ (args : List Str) (b : Board) (x : Outcome), freeLoop n b args = .error x → Ordinary x := by
  intro args
  induction args with
  | nil => intro b x h; cases h
  | cons v vs ih =>
    intro b x h
    unfold freeLoop at h
    split at h
    · cases h; exact ordinary_error _
    · cases h; exact ordinary_error _
    · split at h
      · cases h; exact ordinary_error _
      · cases h; exact ordinary_exception _
      · exact ih _ _ h

theorem genmove_ordinary (env : Env) (s : GS) (args : List Str) (fr ac : Bool) : Ordinary (s.handleGenmove env args fr ac).2 := by
  unfold GS.handleGenmove err exc
  repeat' split
  all_goals first | exact ordinary_value _ | exact ordinary_error _ | exact ordinary_exception _

theorem step_ordinary (env : Env) (s : GS) (c : Cmd) (args : List Str) : Ordinary (s.step env c args).2 := by
  cases c
  case setFreeHandicap =>
    show Ordinary (s.setFreeHandicap args).2
    unfold GS.setFreeHandicap err exc
    simp only
    split
    · exact ordinary_error _
    · split
      · exact ordinary_error _
      · split
        · rename_i x hx
          split
          · exact ordinary_exception _
          · exact freeLoop_ordinary _ _ _ _ hx
        · exact ordinary_value _
  case genmove => exact genmove_ordinary _ _ _ _ _
  case regGenmove => exact genmove_ordinary _ _ _ _ _
  case genmoveEx =>
    show Ordinary (s.genmoveEx env args).2
    unfold GS.genmoveEx
    split
    · exact ordinary_value _
    · exact genmove_ordinary _ _ _ _ _
  case placeFreeHandicap =>
    show Ordinary (s.placeFreeHandicap args).2
    unfold GS.placeFreeHandicap err exc
    simp only
    repeat' split
    all_goals first | exact ordinary_value _ | exact ordinary_error _ | exact ordinary_exception _
  case loadsgf =>
    show Ordinary (s.loadsgf env args).2
    unfold GS.loadsgf GS.loadGame err exc
    simp only
    repeat' split
    all_goals first | exact ordinary_value _ | exact ordinary_error _ | exact ordinary_exception _
  case boardsize =>
    show Ordinary (s.boardsize args).2
    unfold GS.boardsize err exc
    repeat' split
    all_goals first | exact ordinary_value _ | exact ordinary_error _ | exact ordinary_exception _
  case clearBoard =>
    show Ordinary (s.clearBoard args).2
    unfold GS.clearBoard exc
    repeat' split
    all_goals first | exact ordinary_value _ | exact ordinary_error _ | exact ordinary_exception _
  case komi =>
    show Ordinary (s.setKomi env args).2
    unfold GS.setKomi err
    repeat' split
    all_goals first | exact ordinary_value _ | exact ordinary_error _ | exact ordinary_exception _
  case fixedHandicap =>
    show Ordinary (s.fixedHandicap args).2
    unfold GS.fixedHandicap err exc
    simp only
    repeat' split
    all_goals first | exact ordinary_value _ | exact ordinary_error _ | exact ordinary_exception _
  case play =>
    show Ordinary (s.play args).2
    unfold GS.play err exc
    repeat' split
    all_goals first | exact ordinary_value _ | exact ordinary_error _ | exact ordinary_exception _
  case undo =>
    show Ordinary (s.undo args).2
    unfold GS.undo err exc
    repeat' split
    all_goals first | exact ordinary_value _ | exact ordinary_error _ | exact ordinary_exception _
  case timeLeft =>
    show Ordinary (s.timeLeft args).2
    unfold GS.timeLeft err
    repeat' split
    all_goals first | exact ordinary_value _ | exact ordinary_error _ | exact ordinary_exception _
  case timeSettings =>
    show Ordinary (s.setTime args).2
    unfold GS.setTime err
    repeat' split
    all_goals first | exact ordinary_value _ | exact ordinary_error _ | exact ordinary_exception _
  case explainLastMove =>
    show Ordinary (s.explainLastMove args).2
    unfold GS.explainLastMove
    repeat' split
    all_goals first | exact ordinary_value _ | exact ordinary_error _ | exact ordinary_exception _

/-- A command of the state which succeeded. -/
theorem state_send {G : Colour → GS} {gc gc' : GC (Internal (GS × ρ))} (h : GCEng o G gc) (c : Colour) {command : Str} {cmd : Cmd} {args : List Str} {r : Str}
    (hc : isWellFormedWord command = true) (ha : ∀ a ∈ args, isWellFormedWord a = true) (hl : stateCommands.lookup command = some cmd)
    (hs : gc.send (engines P) c command args = (.ok r, gc')) :
    ∃ w s' t, (G c).step ((P c).env w) cmd args = (s', .value t) ∧ r = cleanResponse t ∧ GCEng o (upd G c s') gc' := by
  have h1 := send_eng (P := P) h c hc ha
  rw [hs] at h1
  rcases h1 with ⟨e, he, _⟩ | ⟨w, h1, h2, h3⟩
  · cases he
  · rw [run_state (P c) hl] at h1 h2 h3
    simp only at h1 h2 h3
    rcases step_ordinary ((P c).env w) (G c) cmd args with ⟨t, ht⟩ | hbad
    · refine ⟨w, _, t, Prod.ext rfl ht, ?_, h1⟩
      rw [ht] at h3
      have := h3 rfl
      rw [run_value] at this
      exact Except.ok.inj this
    · obtain ⟨msg, hm⟩ := h2 (run_failed hbad _ _ _)
      cases hm

/-- The position with these stones. -/
def stonesAt (l : List Pt) : Position := fun q => if q ∈ l then some .b else none

/-- A state with an empty board, and nothing played. -/
structure Fresh (n : Nat) (s : GS) : Prop where
  knows : Knows n (stonesAt []) [] s
  empty : s.board.isEmpty = true

theorem isReset_fresh {n : Nat} {s s' : GS} (h : IsReset n s s') (hs : s.boardSize = n) (h2 : 2 ≤ n) (ha : ∀ x ∈ s.acceptable, 2 ≤ x) : Fresh n s' := by
  have hi := h.inv hs h2 ha
  obtain ⟨b, hb, rfl⟩ := h
  obtain ⟨b', hb', he⟩ := init_ok h2
  rw [hb] at hb'
  cases hb'
  refine ⟨⟨hi, funext fun q => by rw [he q]; rfl, rfl⟩, (init_spec hb).2.2.2.1⟩

theorem boardsize_fresh {n : Nat} (hn : 2 ≤ n ∧ n ≤ 25) {env : Env} {s s' : GS} {t : Option Str} (ha : ∀ x ∈ s.acceptable, 2 ≤ x)
    (h : s.step env .boardsize [strInt n] = (s', .value t)) : Fresh n s' := by
  have hint : interpretInt (strInt (n : Int)) = some (n : Int) := by
    unfold interpretInt gtpIntMax
    rw [parseInt_strInt]
    simp only
    rw [if_neg (by omega), if_neg (by omega)]
  have h' : s.boardsize [strInt n] = (s', .value t) := h
  unfold GS.boardsize err at h'
  simp only [hint] at h'
  split at h'
  · cases h'
  · obtain ⟨s1, h3, h4⟩ := reset_spec (n := n) (s := { s with boardSize := (n : Int) }) rfl hn.1
    rw [h3] at h'
    cases h'
    exact isReset_fresh h4 rfl hn.1 ha

theorem clear_fresh {n : Nat} {env : Env} {s s' : GS} {args : List Str} {t : Option Str} (hf : Fresh n s)
    (h : s.step env .clearBoard args = (s', .value t)) : Fresh n s' := by
  have h' : s.clearBoard args = (s', .value t) := h
  have hi := hf.knows.inv
  unfold GS.clearBoard at h'
  obtain ⟨s1, h3, h4⟩ := reset_spec hi.size hi.two
  rw [h3] at h'
  cases h'
  exact isReset_fresh h4 hi.size hi.two hi.acc

theorem komi_fresh {n : Nat} {env : Env} {s s' : GS} {args : List Str} {t : Option Str} (hf : Fresh n s)
    (h : s.step env .komi args = (s', .value t)) : Fresh n s' := by
  have h' : s.setKomi env args = (s', .value t) := h
  have hi := hf.knows.inv
  unfold GS.setKomi err at h'
  split at h'
  · cases h'
  · split at h'
    · cases h'
    · cases h'
      exact ⟨⟨⟨hi.size, hi.two, hi.acc, hi.base, hi.rep⟩, hf.knows.base, hf.knows.moves⟩, hf.empty⟩

theorem startColour_eng (hn : 2 ≤ cfg.boardSize ∧ cfg.boardSize ≤ 25) (hk : isWellFormedWord cfg.komiText = true) {G : Colour → GS} {gc gc' : GC (Internal (GS × ρ))}
    (h : GCEng o G gc) (c : Colour) (ha : ∀ x ∈ (G c).acceptable, 2 ≤ x) (hs : startColour (engines P) cfg c gc = (.ok (), gc')) :
    ∃ s, Fresh cfg.boardSize s ∧ GCEng o (upd G c s) gc' := by
  have e : ∀ (f : Colour → GS) x, upd f c x c = x := by intro f x; unfold upd; simp
  unfold startColour at hs
  cases hx : gc.send (engines P) c "boardsize".toList [strInt cfg.boardSize] with
  | mk x gc1 =>
    rw [hx] at hs
    cases x with
    | error e => cases hs
    | ok r =>
      simp only at hs
      obtain ⟨w1, s1, t1, q1, _, h1⟩ := state_send h c (cmd := .boardsize) (by decide +kernel) (by simpa using word_strInt cfg.boardSize) (by decide +kernel) hx
      have f1 := boardsize_fresh hn ha q1
      cases hy : gc1.send (engines P) c "clear_board".toList [] with
      | mk y gc2 =>
        rw [hy] at hs
        cases y with
        | error e => cases hs
        | ok r =>
          simp only at hs
          obtain ⟨w2, s2, t2, q2, _, h2⟩ := state_send h1 c (cmd := .clearBoard) (args := []) (by decide +kernel) (fun _ h => nomatch h) (by decide +kernel) hy
          rw [e] at q2
          have f2 := clear_fresh f1 q2
          cases hz : gc2.send (engines P) c "komi".toList [cfg.komiText] with
          | mk z gc3 =>
            rw [hz] at hs
            cases z with
            | error e => cases hs
            | ok r =>
              cases hs
              obtain ⟨w3, s3, t3, q3, _, h3⟩ := state_send h2 c (cmd := .komi) (by decide +kernel) (by simpa using hk) (by decide +kernel) hz
              rw [e] at q3
              rw [upd_upd, upd_upd] at h3
              exact ⟨s3, komi_fresh f2 q3, h3⟩

theorem prepare_eng (hn : 2 ≤ cfg.boardSize ∧ cfg.boardSize ≤ 25) (hk : isWellFormedWord cfg.komiText = true) {G : Colour → GS}
    {gc : GC (Internal (GS × ρ))} (h : GCEng o G gc) (ha : ∀ c, ∀ x ∈ (G c).acceptable, 2 ≤ x) (user : τ) (limit : Option Int) (gameId : Option Str)
    {g : GtpGame (Internal (GS × ρ)) τ} (hp : (GtpGame.init cfg gc user limit gameId).prepare (engines P) cfg = (.ok (), g)) :
    (∃ G', GCEng false G' g.runner.env.gc ∧ ∀ c, Fresh cfg.boardSize (G' c)) ∧ g.runner.state = 1 ∧ g.runner.handicapStones = none ∧ g.runner.moveLimit = limit := by
  unfold GtpGame.prepare Runner.prepare at hp
  simp only [GtpGame.init, Runner.init, ne_eq, not_true_eq_false, if_false, Runner.call] at hp
  cases hx : (gtpBackend (engines P) cfg).startNewGame cfg.boardSize cfg.komi ⟨gc, none, user, []⟩ with
  | mk x env =>
    rw [hx] at hp
    cases x with
    | error e => cases hp
    | ok u =>
      cases hp
      refine ⟨?_, rfl, rfl, rfl⟩
      change startNewGame (engines P) cfg cfg.boardSize cfg.komi ⟨gc, none, user, []⟩ = _ at hx
      unfold startNewGame at hx
      rw [if_neg (by simp)] at hx
      have h0 : GCEng false G (gc.setCautious false) := ⟨rfl, h.ctl⟩
      cases hy : startColour (engines P) cfg .b (gc.setCautious false) with
      | mk y gc1 =>
        rw [hy] at hx
        cases y with
        | error e => simp [toBackend, GEnv.lift] at hx
        | ok u =>
          simp only at hx
          obtain ⟨sb, fb, h1⟩ := startColour_eng hn hk h0 .b (ha .b) hy
          cases hz : startColour (engines P) cfg .w gc1 with
          | mk z gc2 =>
            rw [hz] at hx
            cases z with
            | error e => simp [toBackend, GEnv.lift] at hx
            | ok u =>
              obtain ⟨sw, fw, h2⟩ := startColour_eng hn hk h1 .w (ha .w) hz
              simp only [toBackend, GEnv.lift, Prod.mk.injEq, true_and] at hx
              subst hx
              refine ⟨_, h2, fun c => ?_⟩
              cases c
              · exact fb
              · exact fw

theorem Placed.knows {n : Nat} {s s' : GS} {k : Int} {l : List Pt} (h : Placed n s s' k l) : Knows n (stonesAt l) [] s' := by
  obtain ⟨b, rfl⟩ := h.eq
  exact ⟨h.inv, funext h.pos, rfl⟩

theorem interpretInt_strInt {k : Int} (h : 0 ≤ k ∧ k ≤ 625) : interpretInt (strInt k) = some k := by
  unfold interpretInt gtpIntMax
  rw [parseInt_strInt]
  simp only
  rw [if_neg (by omega), if_neg (by omega)]

theorem notifyFixed_eng (hn : 2 ≤ cfg.boardSize ∧ cfg.boardSize ≤ 25) {G : Colour → GS} {env env' : GEnv (Internal (GS × ρ)) τ}
    (h : GCEng false G env.gc) (c : Colour) (hf : Fresh cfg.boardSize (G c)) (k : Int) (l : List Pt) (hk : 0 ≤ k ∧ k ≤ 625) (hl : Handicap.points k cfg.boardSize = .ok l)
    (hs : notifyFixedHandicap (engines P) cfg c k l env = (.ok (), env')) :
    ∃ s, Knows cfg.boardSize (stonesAt l) [] s ∧ GCEng false (upd G c s) env'.gc := by
  unfold notifyFixedHandicap at hs
  split at hs
  · cases hs
  · cases hx : env.gc.send (engines P) c "fixed_handicap".toList [strInt k] with
    | mk x gc1 =>
      rw [hx] at hs
      cases x with
      | error e => cases hs
      | ok r =>
        simp only at hs
        obtain ⟨w, s, t, q1, _, h1⟩ := state_send h c (cmd := .fixedHandicap) (by decide +kernel) (by simpa using word_strInt k) (by decide +kernel) hx
        have hkn : Knows cfg.boardSize (stonesAt l) [] s := by
          rcases fixedHandicap_spec (args := [strInt k]) (o := .value t) hf.knows.inv (show (G c).fixedHandicap [strInt k] = _ from q1) with ⟨hb, _⟩ | ⟨_, a, r, k', l', t', e1, e2, e3, _, _, _, e4⟩
          · exact absurd ⟨t, rfl⟩ hb
          · cases e1
            rw [interpretInt_strInt hk] at e2
            cases e2
            rw [hl] at e3
            cases e3
            exact e4.knows
        split at hs
        · cases hs
        · split at hs
          · cases hs; exact ⟨s, hkn, h1⟩
          · cases hs

/-! The list of vertices an engine gives for a free handicap. -/

theorem good_join {l : List Str} (hw : ∀ w ∈ l, isWellFormedWord w = true) : Good (join [' '] l) := by
  have hchar : ∀ c ∈ join [' '] l, c = ' ' ∨ isSpace c = false ∧ ¬ Spec.IsControl c ∧ c ≠ '\t' ∧ c ≠ '\n' := by
    intro c hc
    rcases mem_join hc with hc | ⟨x, hx, hc⟩
    · exact .inl (by simpa using hc)
    · have := hw x hx
      unfold isWellFormedWord at this
      simp only [ne_eq, decide_not, Bool.and_eq_true, List.all_eq_true] at this
      exact .inr (word_not_space (this.2 c hc))
  refine ⟨?_, ?_, ?_, ?_⟩
  · intro c hc
    rcases hchar c hc with rfl | h
    · rintro ⟨h, _, _⟩
      revert h
      decide
    · exact h.2.1
  · intro hc
    rcases hchar _ hc with h | h
    · revert h; decide
    · exact h.2.2.1 rfl
  · rintro ⟨a, b, hab⟩
    have : '\n' ∈ join [' '] l := by rw [← hab]; simp [show "\n\n".toList = ['\n', '\n'] from rfl]
    rcases hchar _ this with h | h
    · revert h; decide
    · exact h.2.2.2 rfl
  · intro c hc
    rcases List.eq_nil_or_concat l with rfl | ⟨l', x, rfl⟩
    · cases hc
    · rw [List.concat_eq_append] at hc hw
      have hx := hw x (by simp)
      have hg := good_word hx
      rw [Ascii.join_getLast (by rintro rfl; revert hx; decide)] at hc
      exact hg.last c hc

theorem vertexText_words {n : Nat} (hn : n ≤ 25) {l : List Pt} (hl : ∀ p ∈ l, OnBoard n p) :
    vertexText l = .ok (join [' '] (l.map fun p => moveWord (some p))) := by
  unfold vertexText
  rw [moveWords hn hl]
  rfl

theorem word_moves {n : Nat} (hn : n ≤ 25) {l : List Pt} (hl : ∀ p ∈ l, OnBoard n p) : ∀ w ∈ l.map (fun p => moveWord (some p)), isWellFormedWord w = true := by
  intro w hw
  obtain ⟨p, hp, rfl⟩ := List.mem_map.1 hw
  exact word_formatVertex (moveWord_format hn (m := some p) (fun q hq => by cases hq; exact hl p hp))

theorem moveWord_point {n : Nat} (hn : n ≤ 25) {p : Pt} (hp : OnBoard n p) : moveFromVertex (moveWord (some p)) n = .ok (some p) := by
  obtain ⟨v', hv', _, hr⟩ := C13_vertex_round_trip n hn p hp
  rw [moveWord_format hn (m := some p) (fun q hq => by cases hq; exact hp)] at hv'
  cases hv'
  exact hr _ rfl

theorem readVertices_words {n : Nat} (hn : n ≤ 25) {l : List Pt} (hne : l ≠ []) (hl : ∀ p ∈ l, OnBoard n p) :
    readVertices n (cleanResponse (some (join [' '] (l.map fun p => moveWord (some p))))) = some (l.map some) := by
  have hw := word_moves hn hl
  rw [clean_good_id (good_join hw), readVertices_some, splitOn_join (by simpa using hne)]
  · rw [List.map_map, List.map_map]
    exact List.map_congr_left fun p hp => moveWord_point hn (hl p hp)
  · intro x hx hs
    have := hw x hx
    unfold isWellFormedWord at this
    simp only [ne_eq, decide_not, Bool.and_eq_true, List.all_eq_true] at this
    have := (word_not_space (this.2 _ hs)).1
    revert this
    decide

theorem filterMap_map_some {α : Type} (l : List α) : (l.map some).filterMap id = l := by
  induction l with
  | nil => rfl
  | cons a l ih => rw [List.map_cons, List.filterMap_cons]; simp only [id, List.cons.injEq, true_and]; exact ih

theorem vertexPoints_words {n : Nat} (hn : n ≤ 25) : ∀ {l : List Pt}, (∀ p ∈ l, OnBoard n p) → vertexPoints n (l.map fun p => moveWord (some p)) = some l := by
  intro l
  induction l with
  | nil => intro _; rfl
  | cons p l ih =>
    intro h
    rw [List.map_cons]
    unfold vertexPoints
    rw [moveWord_point hn (h p List.mem_cons_self), ih (fun q hq => h q (List.mem_cons_of_mem _ hq))]

/-- The stones don't cover the board. -/
def SomeFree (n : Nat) (l : List Pt) : Prop := ∃ q, OnBoard n q ∧ q ∉ l

theorem setHandicap_eng (hn : 2 ≤ cfg.boardSize ∧ cfg.boardSize ≤ 25) {G : Colour → GS} {g0 g : GtpGame (Internal (GS × ρ)) τ}
    (h : GCEng false G g0.runner.env.gc) (hf : ∀ c, Fresh cfg.boardSize (G c)) {hc : Option (Int × Bool × List Pt)}
    (hst : g0.runner.state = 1) (hnone : g0.runner.handicapStones = none) (hsize : g0.runner.boardSize = cfg.boardSize)
    (hs : SetUp (engines P) cfg g0 hc g) :
    SomeFree cfg.boardSize (g.runner.handicapStones.getD []) ∧
    ∃ G', GCEng false G' g.runner.env.gc ∧ ∀ c, Knows cfg.boardSize (stonesAt (g.runner.handicapStones.getD [])) [] (G' c) := by
  cases hc with
  | none =>
    have hs : g = g0 := hs
    rw [hs, hnone]
    refine ⟨⟨(0, 0), ?_, fun h => nomatch h⟩, G, h, fun c => (hf c).knows⟩
    unfold OnBoard
    simp only
    omega
  | some x =>
    obtain ⟨k, free, points⟩ := x
    obtain ⟨hs, hp⟩ := hs
    unfold GtpGame.setHandicap at hs
    simp only [Prod.mk.injEq] at hs
    obtain ⟨hs, rfl⟩ := hs
    simp only at hp ⊢
    generalize hr : ({ g0.runner with env := { g0.runner.env with handicap := some k } } : Runner (GEnv (Internal (GS × ρ)) τ)) = r0 at *
    have h0 : GCEng false G r0.env.gc := by rw [← hr]; exact h
    have hst0 : r0.state = 1 := by rw [← hr]; exact hst
    have hsz : r0.boardSize = cfg.boardSize := by rw [← hr]; exact hsize
    clear hr h hst hsize
    obtain ⟨hbad, hgood⟩ := C31_set_handicap (gtpBackend (engines P) cfg) r0 hst0 k free
    by_cases hok : HandicapOK r0.boardSize k free
    · obtain ⟨hfree, hfixed⟩ := hgood hok
      rw [hp]
      simp only [Option.getD_some]
      cases free with
      | true =>
        obtain ⟨f1, f2, f3⟩ := hfree rfl
        cases hx : (gtpBackend (engines P) cfg).getFreeHandicap k r0.env with
        | mk x env =>
          cases x with
          | error e => rw [f1 e env hx] at hs; cases hs
          | ok l =>
            cases hy : (gtpBackend (engines P) cfg).notifyFreeHandicap l env with
            | mk y env' =>
              cases y with
              | error e => rw [f2 l env e env' hx hy] at hs; cases hs
              | ok u =>
                rw [f3 l env env' hx hy] at hp ⊢
                simp only [Option.some.injEq] at hp
                subst hp
                simp only
                change getFreeHandicap (engines P) cfg k r0.env = _ at hx
                change notifyFreeHandicap (engines P) l env = _ at hy
                unfold getFreeHandicap at hx
                split at hx
                · cases hx
                · cases hz : r0.env.gc.send (engines P) .b "place_free_handicap".toList [strInt k] with
                  | mk z gc1 =>
                    rw [hz] at hx
                    cases z with
                    | error e => cases hx
                    | ok vs =>
                      simp only at hx
                      obtain ⟨w1, s1, t1, q1, hvs, h1⟩ := state_send h0 .b (cmd := .placeFreeHandicap) (by decide +kernel) (by simpa using word_strInt k) (by decide +kernel) hz
                      rcases placeFreeHandicap_spec (args := [strInt k]) (o := .value t1) (hf .b).knows.inv (show (G .b).placeFreeHandicap [strInt k] = _ from q1) with ⟨hb, _⟩ | ⟨_, a, r, k1, k2, k3, l', t', e1, e2, e3, e4, e5, e6, e7, _, e8⟩
                      · exact absurd ⟨t1, rfl⟩ hb
                      · obtain ⟨p1, p2, p3, p4, p5, p6⟩ := fixed_points e5
                        have hne : l' ≠ [] := by
                          rintro rfl
                          rcases C15_handicap_points k2 cfg.boardSize with ⟨m, _, h2, _⟩ | ⟨hh, _⟩
                          · simp only [List.length_nil] at p3
                            omega
                          · rw [e5] at hh; cases hh
                        rw [vertexText_words hn.2 p2] at e6
                        cases e6
                        cases e7
                        have hread := readVertices_words hn.2 hne p2
                        rw [← hvs] at hread
                        rw [hread] at hx
                        simp only at hx
                        split at hx
                        · cases hx
                        · split at hx
                          · cases hx
                          · simp only [Prod.mk.injEq, Except.ok.injEq, filterMap_map_some] at hx
                            obtain ⟨rfl, rfl⟩ := hx
                            unfold notifyFreeHandicap at hy
                            rw [moveWords hn.2 p2] at hy
                            simp only at hy
                            cases hw : gc1.send (engines P) .w "set_free_handicap".toList (l'.map fun p => moveWord (some p)) with
                            | mk w gc2 =>
                              rw [hw] at hy
                              cases w with
                              | error e => cases hy
                              | ok r =>
                                simp only [Prod.mk.injEq, true_and] at hy
                                subst hy
                                obtain ⟨w2, s2, t2, q2, _, h2⟩ := state_send h1 .w (cmd := .setFreeHandicap) (by decide +kernel) (word_moves hn.2 p2) (by decide +kernel) hw
                                have hkw : Knows cfg.boardSize (stonesAt l') [] s2 := by
                                  rcases setFreeHandicap_spec (o := .value t2) (hf .w).knows.inv (show (G .w).setFreeHandicap _ = _ from q2) with ⟨hb, _⟩ | ⟨_, ps, _, v1, _, _, _, _, v2⟩
                                  · exact absurd ⟨t2, rfl⟩ hb
                                  · rw [vertexPoints_words hn.2 p2] at v1
                                    cases v1
                                    exact v2.knows
                                refine ⟨⟨(0, 0), by unfold OnBoard; simp only; omega, p6⟩, _, h2, fun c => ?_⟩
                                cases c
                                · exact e8.knows
                                · exact hkw
      | false =>
        obtain ⟨l, hl, f1, f2, f3⟩ := hfixed rfl
        have hk : 0 ≤ k ∧ k ≤ 625 := by
          obtain ⟨m, hm, h2, h3⟩ : ∃ m, Handicap.maxFixed r0.boardSize = .ok m ∧ 2 ≤ k ∧ k ≤ m := hok
          have : m ≤ 9 := by
            unfold Handicap.maxFixed at hm
            split at hm
            · cases hm; omega
            · split at hm
              · cases hm
              · split at hm <;> cases hm <;> omega
          omega
        rw [hsz] at hl
        cases hx : (gtpBackend (engines P) cfg).notifyFixedHandicap .b k l r0.env with
        | mk x env =>
          cases x with
          | error e => rw [f1 e env hx] at hs; cases hs
          | ok u =>
            cases hy : (gtpBackend (engines P) cfg).notifyFixedHandicap .w k l env with
            | mk y env' =>
              cases y with
              | error e => rw [f2 env e env' hx hy] at hs; cases hs
              | ok u =>
                rw [f3 env env' hx hy] at hp ⊢
                simp only [Option.some.injEq] at hp
                subst hp
                simp only
                obtain ⟨sb, kb, h1⟩ := notifyFixed_eng hn h0 .b (hf .b) k l hk hl hx
                obtain ⟨sw, kw, h2⟩ := notifyFixed_eng hn h1 .w (hf .w) k l hk hl hy
                refine ⟨⟨(0, 0), by unfold OnBoard; simp only; omega, (fixed_points hl).2.2.2.2.2⟩, _, h2, fun c => ?_⟩
                cases c
                · exact kb
                · exact kw
    · rw [hbad hok] at hs; cases hs

theorem finish_eng {G : Colour → GS} (g : GtpGame (Internal (GS × ρ)) τ) (h : GCEng o G g.runner.env.gc) (res : Res) :
    GCEng o G (g.finish (engines P) cfg res).2.runner.env.gc := by
  unfold GtpGame.finish
  have h1 := cpuTimes_eng (P := P) cfg.cpuFloat h
  simp only
  cases hx : g.runner.env.gc.cpuTimes (engines P) cfg.cpuFloat with
  | mk x gc1 =>
    rw [hx] at h1
    cases x with
    | error e => exact h1
    | ok r => exact h1

/-- C64: a whole game between two engines made from Gtp_states, whatever they did before.  However the run ends, the state of each engine is that of the game as far as it
has been told: the size, the starting position with the handicap stones, and all the moves recorded (apart from a last one it hasn't been told of, and with a last one of its
own which hasn't been recorded), as `Standing` says.  All the players' actions are those their generators chose for that game; and an engine never refuses a move. -/
theorem C64_lockstep (P : Colour → StateEngine ρ) (cfg : GtpCfg τ) (hk : isWellFormedWord cfg.komiText = true) (hn : 2 ≤ cfg.boardSize ∧ cfg.boardSize ≤ 25)
    (fmt : Rat → Str) (gc : GC (Internal (GS × ρ))) (hgc : Sound gc) (hal : ∀ c, (gc.ctl c).aliases = []) (hidle : ∀ c, (gc.ctl c).chan.outstanding = [])
    (hacc : ∀ c, ∀ x ∈ (gc.ctl c).chan.engine.1.acceptable, 2 ≤ x) (user : τ) (limit : Option Int) (gameId : Option Str)
    (g0 g : GtpGame (Internal (GS × ρ)) τ) (hprep : (GtpGame.init cfg gc user limit gameId).prepare (engines P) cfg = (.ok (), g0))
    (hc : Option (Int × Bool × List Pt)) (hset : SetUp (engines P) cfg g0 hc g)
    (fuel : Nat) (r : Except GExc Unit) (g' : GtpGame (Internal (GS × ρ)) τ) (game : Option Game)
    (hrun : g.run (engines P) cfg fmt fuel = some (r, g', game)) :
    ∃ (b0 : Board) (first : Colour) (gm : Game) (h : List Mv) (e : Option Ending) (ph : Phase), game = some gm ∧ StartBoard g.runner b0 ∧
      first = (if hc = none then .b else .w) ∧ Played cfg.boardSize b0 first limit h e gm ∧
      Standing (r ≠ .ok ()) first (fun h c act => Answered (P c).env cfg.boardSize b0.pos (cfg.claimAllowed c) h c act) NoObjection h e (movesOf g'.runner) ph ∧
      (r = .ok () → gm.isOver = true) ∧
      ∀ c, InStep cfg.boardSize b0.pos (knownBy c ph) (g'.runner.env.gc.ctl c).chan.engine.1 := by
  have h0 : GCEng gc.cautious (fun c => (gc.ctl c).chan.engine.1) gc := ⟨rfl, fun c => ⟨(hgc c).1, hal c, hidle c, rfl⟩⟩
  obtain ⟨⟨G1, h1, hfresh⟩, hst, hnone, hl0⟩ := prepare_eng hn hk h0 hacc user limit gameId hprep
  have hready0 : Ready (engines P) cfg g0 := .prepare gc user limit gameId g0 hgc.usable hprep
  obtain ⟨hfree, G2, h2, hknows⟩ := setHandicap_eng hn h1 hfresh hst hnone (hready0.inv hk hn.2).size hset
  have hready : Ready (engines P) cfg g := by
    cases hc with
    | none => rw [show g = g0 from hset]; exact hready0
    | some x => exact .handicap g0 g _ _ _ hready0 hset.1 (fun h => nomatch h)
  have hi := hready.inv hk hn.2
  have hlim : g.runner.moveLimit = limit := by
    cases hc with
    | none => rw [show g = g0 from hset]; exact hl0
    | some x =>
      have := hset.1
      unfold GtpGame.setHandicap at this
      simp only [Prod.mk.injEq] at this
      obtain ⟨_, rfl⟩ := this
      simp only
      rw [setHandicap_limit]
      exact hl0
  have hstones : (g.runner.handicapStones.getD [] = []) ↔ hc = none := by
    cases hc with
    | none => rw [show g = g0 from hset, hnone]; simp
    | some x =>
      obtain ⟨k, free, l⟩ := x
      obtain ⟨q1, q2⟩ := hset
      obtain ⟨r1, g1, e1, _, e3⟩ := setHandicap_ready (engines P) cfg hn.2 (hready0.inv hk hn.2) k free
      rw [q1] at e1
      cases e1
      rcases e3 with ⟨e3, _⟩ | ⟨_, ⟨_, _, _, _, l', e4, e5, _⟩ | ⟨e3, _⟩ | ⟨e3, _⟩ | ⟨e3, _⟩⟩
      · cases e3
      · rw [e4]; simp [e5]
      · cases e3
      · cases e3
      · cases e3
  obtain ⟨game0, hmake⟩ := makeGame_ok hn.1 hi.size hi.stones
  obtain ⟨b0, first, hb, hg0, hfirst⟩ := makeGame_spec hmake
  obtain ⟨r1, x, k1, k2, k3, env', k4⟩ := gtpRun_cases (engines P) cfg fmt fuel g r g' game hrun
  have hbr := hb.reachable
  have hpos : b0.pos = stonesAt (g.runner.handicapStones.getD []) := by
    funext q
    rw [hb.stones q, hi.size, if_pos (show ∃ q, OnBoard cfg.boardSize q ∧ q ∉ g.runner.handicapStones.getD [] from hfree)]
    rfl
  have T := lock_tracks P cfg hn.2 (b0 := b0) (first := first) (limit := g.runner.moveLimit)
  have hj : Lockstep cfg.boardSize b0.pos false (.told []) g.runner.env := ⟨G2, h2, fun c => by rw [hpos]; exact hknows c⟩
  rw [← hi.size] at T hj
  obtain ⟨gm, h, e, ph, m1, m2, m3, m4, m5⟩ := run_tracks hi.moves (by rw [hi.size]; exact hn.2) hi.state hmake hbr hg0 T hj fuel _ k1
  rw [hi.size] at m2 m3 m4
  simp only at m1 m3 m4 m5
  have hmv : movesOf g'.runner = movesOf x := by rw [k4]; rfl
  have fin : r = r1 ∨ r1 = .ok () := by
    cases hr1 : r1 with
    | error e => exact .inl (k2 e hr1).1
    | ok u => exact .inr rfl
  obtain ⟨G3, q1, q2⟩ := m3
  have hsent : GCEng gm.isOver G3 g'.runner.env.gc := by
    cases hr1 : r1 with
    | error e => rw [(k2 e hr1).2]; exact q1
    | ok u =>
      cases hres : x.result with
      | none =>
        unfold GtpGame.run at hrun
        rw [k1, hr1] at hrun
        simp only [hres] at hrun
        cases hrun
        exact q1
      | some res =>
        have := k3 hr1 res hres
        have h5 := finish_eng (P := P) (cfg := cfg) { g with runner := x } q1 res
        rw [this] at h5
        exact h5
  refine ⟨b0, first, gm, h, e, ph, m1, hb, ?_, ?_, ?_, ?_, ?_⟩
  · rw [hfirst]
    by_cases hcn : hc = none
    · rw [if_pos (hstones.2 hcn), if_pos hcn]
    · rw [if_neg (fun hh => hcn (hstones.1 hh)), if_neg hcn]
  · rw [← hlim]; exact m2
  · rw [hmv]
    refine m4.mono ?_ (fun _ _ _ h => h) (fun _ _ h => h)
    intro hne
    rcases fin with hf | hf
    · rw [hf]; exact hne
    · exact absurd hf hne
  · intro hr
    refine m5 ?_
    rcases fin with hf | hf
    · rw [← hf]; exact hr
    · exact hf
  · intro c
    rw [(hsent.ctl c).state]
    exact (q2 c).inStep

/-- How a game between such engines can be lost by a forfeit or an illegal move: only if the generator of the player to move, told of the game, failed or tried to play at a
point which isn't vacant; or chose the point it was told is forbidden by ko. -/
theorem C64_no_disputes (env : Colour → ρ → Env) (allowed : Colour → Bool) {n : Nat} (hn : n ≤ 25) {b0 : Board} (hb : ReachableBoard n b0) {first : Colour} {limit : Option Int}
    {h : List Mv} {e : Option Ending} {gm : Game} (hp : Played n b0 first limit h e gm) {raised : Prop} {mv : List Mv} {ph : Phase}
    (hs : Standing raised first (fun h c act => Answered (env c) n b0.pos (allowed c) h c act) NoObjection h e mv ph) :
    (∀ c reason, e = some (.forfeited c reason) → c = toPlay first h.length ∧ ∃ (w : ρ) (s : GS), InStep n b0.pos h s ∧
      ∀ g, (env c w).generate (s.gameState c false) c = some g → g.passMove = false ∧ g.resign = false ∧
        ∀ p, g.move = some p → ¬ (OnBoard n p ∧ replay n b0.pos h p = none)) ∧
    (∀ c p, e = some (.illegal c p) → c = toPlay first h.length ∧ ∃ (w : ρ) (s : GS) (g : GenResult), InStep n b0.pos h s ∧
      (env c w).generate (s.gameState c false) c = some g ∧ g.move = some p ∧ (s.gameState c false).koPoint = some p) := by
  have hi := hp.inv hn hb.inv
  constructor
  · rintro c reason rfl
    generalize he : some (Ending.forfeited c reason) = e' at hs
    cases hs with
    | forfeit _ msg ha =>
      cases he
      refine ⟨rfl, ?_⟩
      obtain ⟨w, s, claim, h1, _, h2⟩ := ha
      refine ⟨w, s, h1, fun g hg => ?_⟩
      rw [hg] at h2
      cases h2 with
      | bad _ _ _ h3 h4 h5 => exact ⟨h4, h3, h5⟩
    | refused h0 m sm _ hS hne =>
      exact absurd (by rw [hS.2 rfl]) hne
    | told => cases he
    | asked => cases he
    | resign => cases he
    | claim => cases he
    | illegal => cases he
    | untold => cases he
    | unreported => cases he
  · rintro c p rfl
    obtain ⟨hill, _, hc⟩ := hi.illegalReason c p rfl
    subst hc
    generalize he : some (Ending.illegal (toPlay first h.length) p) = e' at hs
    cases hs with
    | illegal _ q ha =>
      cases he
      refine ⟨rfl, ?_⟩
      obtain ⟨w, s, claim, h1, _, h2⟩ := ha
      generalize hg : (env (toPlay first h.length) w).generate (s.gameState (toPlay first h.length) false) (toPlay first h.length) = x at h2
      cases h2 with
      | play g _ _ _ _ hm _ hv =>
        refine ⟨w, s, g, h1, hg, hm, ?_⟩
        rcases hill with hill | ⟨l, d, q, rfl, hko⟩
        · exact absurd hv hill
        · have hd : d = toPlay first l.length := hi.alt l.length (d, some q) (by simp)
          have hto : toPlay first (l ++ [(d, some q)]).length = d.opponent := by
            rw [hd, List.length_append, List.length_singleton]
            unfold toPlay
            rcases Nat.mod_two_eq_zero_or_one l.length with h | h
            · rw [if_pos h, if_neg (by omega)]
            · rw [if_pos (show (l.length + 1) % 2 = 0 by omega), if_neg (show ¬ l.length % 2 = 0 by omega), opp_opp]
          rw [hto]
          exact h1.ko l d q p rfl hko
    | refused => cases he
    | told => cases he
    | asked => cases he
    | resign => cases he
    | claim => cases he
    | forfeit => cases he
    | untold => cases he
    | unreported => cases he

/-- A generator which plays the moves of a list, each by its number in the game, and then passes. -/
def listGenerator (moves : List (Option Pt)) (gs : GameState) (_ : Colour) : Option GenResult :=
  match moves[gs.history.length]? with
  | some (some p) => some { move := some p }
  | _ => some { passMove := true }

/-- An engine with that generator.  (`ρ` counts the commands.) -/
def listPlayer (moves : List (Option Pt)) : StateEngine Nat where
  env := fun _ => ⟨listGenerator moves, fun _ => some 0, fun _ => none, fun _ => true⟩
  next := fun w _ _ _ => w + 1
  other := fun _ => none
  fatal := true

def lockGC : GC (Internal (GS × Nat)) where
  ctl := fun c => Ctl.init ⟨(testGS, 0), [], false⟩ (match c with | .b => "player one".toList | .w => "player two".toList)
  code := exampleGC.code
  lateErrors := []
  cautious := false

def lockCfg (n : Nat) : GtpCfg Unit := { exampleCfg with boardSize := n, scorers := [], internal := true }

/-- A game: preparing, the handicap, and the run. -/
def lockPrepared (n : Nat) (moves : List (Option Pt)) : Except GExc Unit × GtpGame (Internal (GS × Nat)) Unit :=
  (GtpGame.init (lockCfg n) lockGC () (some 30) none).prepare (engines fun _ => listPlayer moves) (lockCfg n)

def lockSet (n : Nat) (moves : List (Option Pt)) (k : Int) (free : Bool) : Except GExc Unit × GtpGame (Internal (GS × Nat)) Unit :=
  (lockPrepared n moves).2.setHandicap (engines fun _ => listPlayer moves) (lockCfg n) k free

def lockRun (n : Nat) (moves : List (Option Pt)) (g : GtpGame (Internal (GS × Nat)) Unit) :
    Option (Except GExc Unit × GtpGame (Internal (GS × Nat)) Unit × Option Game) :=
  g.run (engines fun _ => listPlayer moves) (lockCfg n) (fun _ => "0".toList) 30

/-- B1 A1 pass A3 pass B2 A2, and then A1, which is forbidden by ko. -/
def koMoves : List (Option Pt) := [some (0, 1), some (0, 0), none, some (2, 0), none, some (1, 1), some (1, 0), some (0, 0)]

/-- C64: the hypotheses are satisfied; a game which ends with a move forbidden by ko, which the engine of the player who made it believes has been played; and games with
handicaps. -/
theorem C64_witness :
    Sound lockGC ∧ (∀ c, (lockGC.ctl c).aliases = []) ∧ (∀ c, (lockGC.ctl c).chan.outstanding = []) ∧
    (∀ c, ∀ x ∈ (lockGC.ctl c).chan.engine.1.acceptable, 2 ≤ x) ∧
    (lockPrepared 3 koMoves).1 = .ok () ∧
    (lockRun 3 koMoves (lockPrepared 3 koMoves).2).map (fun x => decide (x.1 = .ok ())) = some true ∧
    (lockRun 3 koMoves (lockPrepared 3 koMoves).2).map (fun x => x.2.1.result.map GameResult.describe) =
      some (some "one beat two B+F (forfeit by two: attempted move to ko-forbidden point A1)".toList) ∧
    (lockRun 3 koMoves (lockPrepared 3 koMoves).2).map (fun x => movesOf x.2.1.runner) =
      some [(.b, some (0, 1)), (.w, some (0, 0)), (.b, none), (.w, some (2, 0)), (.b, none), (.w, some (1, 1)), (.b, some (1, 0))] ∧
    (lockRun 3 koMoves (lockPrepared 3 koMoves).2).map (fun x => (x.2.1.runner.env.gc.ctl .b).chan.engine.1.board.rows) =
      some [[none, some .b, none], [some .b, some .w, none], [some .w, none, none]] ∧
    (lockRun 3 koMoves (lockPrepared 3 koMoves).2).map (fun x => (x.2.1.runner.env.gc.ctl .w).chan.engine.1.board.rows) =
      some [[some .w, some .b, none], [none, some .w, none], [some .w, none, none]] ∧
    (lockPrepared 9 [some (4, 4)]).1 = .ok () ∧
    (lockSet 9 [some (4, 4)] 2 false).1 = .ok () ∧ (lockSet 9 [some (4, 4)] 2 false).2.runner.handicapStones = some [(2, 2), (6, 6)] ∧
    (lockSet 9 [some (4, 4)] 3 true).1 = .ok () ∧ (lockSet 9 [some (4, 4)] 3 true).2.runner.handicapStones = some [(2, 2), (6, 6), (6, 2)] ∧
    (lockRun 9 [some (4, 4)] (lockSet 9 [some (4, 4)] 3 true).2).map (fun x => movesOf x.2.1.runner) = some [(.w, some (4, 4)), (.b, none), (.w, none)] := by
  refine ⟨?_, fun c => rfl, fun c => rfl, ?_, by decide +kernel, by decide +kernel, by decide +kernel, by decide +kernel, by decide +kernel, by decide +kernel,
    by decide +kernel, by decide +kernel, by decide +kernel, by decide +kernel, by decide +kernel, by decide +kernel⟩
  · intro c
    exact ⟨rfl, rfl, fun kv h => nomatch h⟩
  · intro c
    show ∀ x ∈ testGS.acceptable, 2 ≤ x
    decide +kernel

end Gomill.Gtp
