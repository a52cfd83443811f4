import Verif.Spec.MoveCallback
import Verif.Props.GtpGame
/-
C31, C58: the after-move callback of a game.
-/
namespace Gomill
open Py Go Spec

variable {σ τ : Type} {n : Nat} {b0 : Board} {first : Colour} {limit : Option Int} {h : List Mv} {e : Option Ending}
variable {B : Backend σ} {seen : σ → τ} {f : Colour → Option Pt → Board → τ → τ}

/-- Nothing seen, and no new moves. -/
def Unseen (seen : σ → τ) (s s' : Run σ) : Prop := seen s'.r.env = seen s.r.env ∧ s'.r.moves = s.r.moves

theorem Unseen.trans {s s1 s2 : Run σ} (h : Unseen seen s s1) (h' : Unseen seen s1 s2) : Unseen seen s s2 := ⟨h'.1.trans h.1, h'.2.trans h.2⟩

theorem unseen_call {α} (s : Run σ) (g : σ → Except GExc α × σ) (hg : ∀ env, seen (g env).2 = seen env) : Unseen seen s (s.call g).2 := ⟨hg _, rfl⟩

theorem unseen_record (hw : Watched B seen f) (s : Run σ) (g : Game → Except GExc Unit × Game) : Unseen seen s (s.record B g).2 := by
  unfold Run.record
  simp only
  rcases (g s.game).1 with x | x
  · exact ⟨rfl, rfl⟩
  · simp only
    split
    · exact ⟨rfl, rfl⟩
    · exact ⟨hw.endGame _, rfl⟩

theorem unseen_diag (s : Run σ) (c : Colour) (m : Option Str) : Unseen seen s (s.setFinalDiagnostics c m) := by
  unfold Run.setFinalDiagnostics
  cases m <;> exact ⟨rfl, rfl⟩

theorem unseen_ended (hw : Watched B seen f) (c : Colour) (s : Run σ) : Unseen seen s (endedByPlayer B c s).2 := by
  unfold endedByPlayer andThen
  have := unseen_call (seen := seen) s (B.getLastMoveComment c) (hw.comment c)
  generalize s.call (B.getLastMoveComment c) = x at this
  obtain ⟨y | y, s1⟩ := x
  · exact this
  · exact this.trans (unseen_diag _ _ _)

theorem unseen_andThen {α β} {s : Run σ} {x : Except GExc α × Run σ} {k : α → Run σ → Except GExc β × Run σ} (h : Unseen seen s x.2)
    (hk : ∀ a s', Unseen seen s' (k a s').2) : Unseen seen s (andThen x k).2 := by
  obtain ⟨y | y, s1⟩ := x
  · exact h
  · exact h.trans (hk y s1)

/-- What is seen of a turn. -/
def TurnSeen (n : Nat) (b0 : Board) (seen : σ → τ) (f : Colour → Option Pt → Board → τ → τ) (h : List Mv) (s s' : Run σ) : Prop :=
  Unseen seen s s' ∨ ∃ c m b cm, seen s'.r.env = f c m b (seen s.r.env) ∧ s'.r.moves = s.r.moves ++ [(c, m, cm)] ∧ b.pos = replay n b0.pos (h ++ [(c, m)]) ∧
    BoardInv n b ∧ ∀ p, m = some p → OnBoard n p

theorem TurnSeen.after {s s1 s2 : Run σ} (h1 : Unseen seen s s1) (h2 : TurnSeen n b0 seen f h s1 s2) : TurnSeen n b0 seen f h s s2 := by
  rcases h2 with h2 | ⟨c, m, b, cm, h3, h4, h5⟩
  · exact .inl (h1.trans h2)
  · exact .inr ⟨c, m, b, cm, by rw [h3, h1.1], by rw [h4, h1.2], h5⟩

theorem playMove_seen (hn : n ≤ 25) (hb : ReachableBoard n b0) (hw : Watched B seen f) {s : Run σ} (hp : Played n b0 first limit h e s.game) (ho : s.game.isOver = false)
    (m : Option Pt) : TurnSeen n b0 seen f h s (playMove B (toPlay first h.length) m s).2 := by
  unfold playMove
  generalize hc0 : toPlay first h.length = c
  have hr := record_spec B s (fun g => g.recordMove c m)
  have hu := unseen_record hw s (fun g => g.recordMove c m)
  rcases hc : s.record B (fun g => g.recordMove c m) with ⟨y | y, s2⟩
  · rw [hc] at hu
    exact .inl hu
  rw [hc] at hr hu
  have hg2 : s.game.recordMove c m = (.ok (), s2.game) := by
    rw [Prod.ext_iff]; exact ⟨hr.2.2 rfl, hr.1.symm⟩
  simp only [andThen]
  refine TurnSeen.after hu ?_
  have hu3 := unseen_call (seen := seen) s2 (B.getLastMoveComment c) (hw.comment c)
  have hcs := (call_spec s2 (B.getLastMoveComment c)).1
  rcases hcc : s2.call (B.getLastMoveComment c) with ⟨y | comment, s3⟩
  · rw [hcc] at hu3
    exact .inl hu3
  rw [hcc] at hu3 hcs
  simp only at hcs ⊢
  refine TurnSeen.after hu3 ?_
  split
  · exact .inl (unseen_diag _ _ _)
  rename_i hsf
  have hon : ∀ p, m = some p → OnBoard n p := by
    rintro p rfl
    apply Classical.byContradiction
    intro hoff
    obtain ⟨x, hx⟩ := recordMove_off hn hb hp c p hoff
    rw [hg2] at hx; cases hx
  have hp2 := Played.move c m hp hon hg2 (by rw [← hcs]; simpa using hsf)
  have hu4 := unseen_call (seen := seen) s3 (B.notifyMove c.opponent m) (hw.notifyMove c.opponent m)
  have hns := (call_spec s3 (B.notifyMove c.opponent m)).1
  rcases hnn : s3.call (B.notifyMove c.opponent m) with ⟨y | sm, s4⟩
  · rw [hnn] at hu4
    exact .inl hu4
  rw [hnn] at hu4 hns
  simp only at hns ⊢
  refine TurnSeen.after hu4 ?_
  split
  · exact .inl ⟨rfl, rfl⟩
  split
  · refine .inl ?_
    have hu5 := unseen_record hw s4 (fun g => g.recordForfeitBy (if sm.1 = Status.reject then c else c.opponent) sm.2)
    generalize s4.record B (fun g => g.recordForfeitBy (if sm.1 = Status.reject then c else c.opponent) sm.2) = x at hu5
    obtain ⟨y | y, s5⟩ := x
    · exact hu5
    · exact hu5.trans (unseen_diag _ _ _)
  · refine .inr ⟨c, m, s4.game.board, comment, hw.afterMove _ _ _ _, rfl, ?_⟩
    rw [hns, hcs]
    exact ⟨(C28_replay hn hb hp2).1, (hp2.inv hn hb.inv).board, hon⟩

theorem doMove_seen (hn : n ≤ 25) (hb : ReachableBoard n b0) (hw : Watched B seen f) {s : Run σ} (hp : Played n b0 first limit h e s.game) (ho : s.game.isOver = false) :
    TurnSeen n b0 seen f h s (doMove B s).2 := by
  have hi := hp.inv hn hb.inv
  unfold doMove
  rw [hi.next, ho]
  simp only [Bool.false_eq_true, if_false]
  have hu := unseen_call (seen := seen) s (B.getMove (toPlay first h.length)) (hw.getMove _)
  have hcs := (call_spec s (B.getMove (toPlay first h.length))).1
  rcases hcc : s.call (B.getMove (toPlay first h.length)) with ⟨y | act, s1⟩
  · rw [hcc] at hu
    exact .inl hu
  rw [hcc] at hu hcs
  simp only [andThen] at hcs ⊢
  refine TurnSeen.after hu ?_
  cases act with
  | forfeit msg => exact .inl (unseen_andThen (unseen_record hw _ _) fun _ _ => unseen_ended hw _ _)
  | resign => exact .inl (unseen_andThen (unseen_record hw _ _) fun _ _ => unseen_ended hw _ _)
  | claim => exact .inl (unseen_andThen (unseen_record hw _ _) fun _ _ => unseen_ended hw _ _)
  | move m => exact playMove_seen hn hb hw (by rw [hcs]; exact hp) (by rw [hcs]; exact ho) m
  | bad => exact .inl ⟨rfl, rfl⟩

theorem callsFor_snoc {pos0 : Position} {moves : List Mv} {calls : List MoveCall} (hc : CallsFor n pos0 moves calls) {c : Colour} {m : Option Pt} {b : Board}
    (hb : b.pos = replay n pos0 (moves ++ [(c, m)])) (hs : BoardInv n b ∧ ∀ p, m = some p → OnBoard n p) : CallsFor n pos0 (moves ++ [(c, m)]) (calls ++ [(c, m, b)]) := by
  have hlen : calls.length = moves.length := by rw [← hc.moves, List.length_map]
  refine ⟨by rw [List.map_append, hc.moves]; rfl, fun i hi => ?_, fun x hx => ?_⟩
  rotate_left
  · rcases List.mem_append.1 hx with hx | hx
    · exact hc.sound x hx
    · rw [List.mem_singleton.1 hx]
      exact hs
  rw [List.length_append, List.length_singleton] at hi
  by_cases hi' : i < calls.length
  · rw [List.getElem_append_left hi', hc.boards i hi', List.take_append_of_le_length (by omega)]
  · obtain rfl : i = calls.length := by omega
    rw [List.getElem_append_right (le_refl _)]
    simp only [Nat.sub_self, List.getElem_cons_zero]
    rw [hb, List.take_of_length_le (by rw [List.length_append, List.length_singleton]; omega)]

theorem runLoop_seen (hn : n ≤ 25) (hb : ReachableBoard n b0) (hw : Watched B seen f) (u : τ) : ∀ (fuel : Nat) (s : Run σ) (h : List Mv) (e : Option Ending) (calls : List MoveCall),
    Played n b0 first limit h e s.game → (s.game.isOver = false → movesOf s.r = h) → CallsFor n b0.pos (movesOf s.r) calls → seen s.r.env = afterCalls f calls u →
    ∀ x, runLoop B fuel s = some x → ∃ calls', CallsFor n b0.pos (movesOf x.2.r) calls' ∧ seen x.2.r.env = afterCalls f calls' u := by
  intro fuel
  induction fuel with
  | zero =>
    intro s h e calls hp hm hc hs x hx
    rw [runLoop] at hx
    split at hx
    · cases hx; exact ⟨calls, hc, hs⟩
    · cases hx
  | succ fuel ih =>
    intro s h e calls hp hm hc hs x hx
    rw [runLoop] at hx
    split at hx
    · cases hx; exact ⟨calls, hc, hs⟩
    rename_i ho
    have ho' : s.game.isOver = false := by simpa using ho
    have hmv := hm ho'
    have ht := doMove_spec hn hb B hmv hp ho'
    have hseen := doMove_seen hn hb hw hp ho'
    have hnext : ∃ calls', CallsFor n b0.pos (movesOf (doMove B s).2.r) calls' ∧ seen (doMove B s).2.r.env = afterCalls f calls' u := by
      rcases hseen with ⟨h1, h2⟩ | ⟨c, m, b, cm, h1, h2, h3⟩
      · refine ⟨calls, ?_, by rw [h1, hs]⟩
        rw [show movesOf (doMove B s).2.r = movesOf s.r by unfold movesOf; rw [h2]]
        exact hc
      · refine ⟨calls ++ [(c, m, b)], ?_, ?_⟩
        · rw [show movesOf (doMove B s).2.r = movesOf s.r ++ [(c, m)] by unfold movesOf; rw [h2, List.map_append]; rfl]
          exact callsFor_snoc hc (by rw [hmv]; exact h3.1) h3.2
        · rw [h1, hs]
          unfold afterCalls
          rw [List.foldl_append]
          rfl
    rcases hd : doMove B s with ⟨y | y, s'⟩
    · rw [hd] at hx hnext
      cases hx
      exact hnext
    · rw [hd] at hx ht hnext
      obtain ⟨_, _, h', e', h3, h4, h5⟩ := ht
      obtain ⟨calls', hc', hs'⟩ := hnext
      exact ih s' h' e' calls' h3 (fun z => (h5 z).1) hc' hs' x hx

theorem setResult_seen (hw : Watched B seen f) (fmt : Rat → Str) (s : Run σ) : seen (setResult B fmt s).2.r.env = seen s.r.env := by
  unfold setResult
  split
  · unfold andThen
    have := (unseen_call (seen := seen) s (B.scoreGame s.game.board) (hw.scoreGame _)).1
    generalize s.call (B.scoreGame s.game.board) = x at this
    obtain ⟨y | sc, s'⟩ := x
    · exact this
    · simp only at this ⊢
      split <;> exact this
  · split <;> rfl

/-- C31: the after-move callback is called for each move reported, in order, with the colour, the move, and a board showing the position after that move; and not otherwise. (If it raises an
exception, that was the last move.) So whatever `seen` shows at the end is what these calls made of it. -/
theorem C31_callback (fmt : Rat → Str) (r : Runner σ) (hr : Prepared B r) (hn : r.boardSize ≤ 25) (hw : Watched B seen f)
    (fuel : Nat) (res : Except GExc Unit) (r' : Runner σ) (game : Option Game) (hrun : r.run B fmt fuel = some (res, r', game)) :
    (movesOf r' = [] ∧ seen r'.env = seen r.env) ∨
    ∃ b0 calls, StartBoard r b0 ∧ CallsFor r.boardSize b0.pos (movesOf r') calls ∧ seen r'.env = afterCalls f calls (seen r.env) := by
  unfold Runner.run at hrun
  split at hrun
  · cases hrun
    exact Or.inl ⟨by simp [movesOf, hr.fresh.1], rfl⟩
  · rcases hg : r.makeGame with x | g0
    · rw [hg] at hrun; cases hrun
      exact Or.inl ⟨by simp [movesOf, hr.fresh.1], rfl⟩
    · rw [hg] at hrun
      obtain ⟨b0, first, hbs, rfl, hfirst⟩ := makeGame_spec hg
      have hb := hbs.reachable
      simp only at hrun
      rcases hl : runLoop B fuel ⟨{ r with state := 3 }, Game.init b0 first r.moveLimit⟩ with _ | x
      · rw [hl] at hrun; cases hrun
      · rw [hl] at hrun
        have hm0 : movesOf ({ r with state := 3 } : Runner σ) = [] := by simp [movesOf, hr.fresh.1]
        obtain ⟨calls, hc, hs⟩ := runLoop_seen hn hb hw (seen r.env) fuel ⟨{ r with state := 3 }, Game.init b0 first r.moveLimit⟩ [] none []
          Played.start (fun _ => hm0) (by rw [hm0]; exact ⟨rfl, fun i hi => absurd hi (Nat.not_lt_zero _), (fun _ h => nomatch h)⟩) rfl x hl
        refine Or.inr ⟨b0, calls, hbs, ?_⟩
        obtain ⟨y, s⟩ := x
        cases y with
        | error x =>
          simp only [andThen] at hrun
          cases hrun
          exact ⟨hc, hs⟩
        | ok u =>
          simp only [andThen] at hrun
          obtain ⟨hm, hgm, herr⟩ := setResult_moves B fmt s
          simp only [Option.some.injEq, Prod.mk.injEq] at hrun
          obtain ⟨e1, e2, e3⟩ := hrun
          have hmoves : movesOf r' = movesOf s.r := by unfold movesOf; rw [← e2, hm]
          refine ⟨by rw [hmoves]; exact hc, ?_⟩
          rw [← e2, setResult_seen hw]
          exact hs

end Gomill

namespace Gomill.Gtp
open Py Go Spec

variable {σ τ : Type}

theorem watched_gtp (C : Colour → Channel σ) (cfg : GtpCfg τ) : Watched (gtpBackend C cfg) GEnv.user (fun c m b u => (cfg.callback c m b u).2) := by
  have hgen : ∀ c mc (env : GEnv σ τ), (genmove C cfg c mc env).2.user = env.user := by
    intro c mc env
    unfold genmove
    simp only
    split
    · rfl
    · rfl
    · split
      · rfl
      · split
        · rfl
        · split <;> rfl
  constructor
  · intro env; rfl
  · intro c env
    show (getMove C cfg c env).2.user = env.user
    unfold getMove
    split
    · split
      · rfl
      · rename_i known gc _
        exact hgen c known { env with gc := gc }
    · exact hgen c false env
  · intro c m env
    show (notifyMove C c m env).2.user = env.user
    unfold notifyMove
    split
    · rfl
    · split
      · split <;> rfl
      · rfl
      · rfl
  · intro b env
    show (scoreGame C cfg b env).2.user = env.user
    unfold scoreGame scoreGameGtp
    split
    · split <;> rfl
    · split
      · rfl
      · simp only
        split <;> rfl
  · intro c env
    show (getLastMoveComment C cfg c env).2.user = env.user
    unfold getLastMoveComment
    split <;> rfl
  · intro c m b env
    show (afterMove cfg c m b env).2.user = _
    unfold afterMove
    rcases hx : cfg.callback c m b env.user with ⟨y | y, u⟩ <;> rfl

/-- C58: the move callback of a Gtp_game is called for each move reported by get_moves, in order, with the colour, the move, and a board showing the position after that move; and not otherwise. `user` is whatever
the callback's function works on. -/
theorem C58_callback (C : Colour → Channel σ) (cfg : GtpCfg τ) (hk : isWellFormedWord cfg.komiText = true) (hn : cfg.boardSize ≤ 25)
    (fmt : Rat → Str) {g : GtpGame σ τ} (hg : Ready C cfg g) (fuel : Nat) (r : Except GExc Unit) (g' : GtpGame σ τ) (game : Option Game)
    (hrun : g.run C cfg fmt fuel = some (r, g', game)) :
    (movesOf g'.runner = [] ∧ g'.runner.env.user = g.runner.env.user) ∨
    ∃ b0 calls, StartBoard g.runner b0 ∧ CallsFor cfg.boardSize b0.pos (movesOf g'.runner) calls ∧
      g'.runner.env.user = afterCalls (fun c m b u => (cfg.callback c m b u).2) calls g.runner.env.user := by
  have hi := hg.inv hk hn
  obtain ⟨r1, x, h1, h2, h3, env', h4⟩ := gtpRun_cases C cfg fmt fuel g r g' game hrun
  have hm : movesOf g'.runner = movesOf x := by rw [h4]; rfl
  have hu : g'.runner.env.user = x.env.user := by
    cases r1 with
    | error e => rw [(h2 e rfl).2]
    | ok u =>
      cases hres : x.result with
      | none =>
        unfold GtpGame.run at hrun
        rw [h1] at hrun
        simp only [hres] at hrun
        cases hrun
        rfl
      | some res =>
        have := h3 rfl res hres
        unfold GtpGame.finish at this
        simp only at this
        split at this
        · rw [← (Prod.mk.inj this).2]
        · rw [← (Prod.mk.inj this).2]
  rw [hm, hu, ← hi.size]
  exact C31_callback fmt g.runner hg.prepared (by rw [hi.size]; exact hn) (watched_gtp C cfg) fuel r1 x game h1

/-- An engine which plays at a vertex if asked for a move by Black, and passes for White. -/
def callbackExample : Option (Except GExc Unit × GtpGame (Option Str) (List MoveCall) × Option Game) :=
  let cfg : GtpCfg (List MoveCall) := { exampleCfg with callback := fun c m b u => (.ok (), u ++ [(c, m, b)]) }
  let C : Colour → Channel (Option Str) := fun c => match c with
    | .b => scripted [("boardsize".toList, []), ("clear_board".toList, []), ("komi".toList, []), ("genmove".toList, "B2".toList), ("play".toList, [])]
    | .w => passer "0"
  let g := ((GtpGame.init cfg exampleGC [] (some 20) (some "1".toList)).prepare C cfg).2
  g.run C cfg (fun _ => "3.5".toList) 20

set_option synthInstance.maxHeartbeats 400000 in
set_option synthInstance.maxSize 1000 in
/-- C58: Black plays, White passes, and Black's next move isn't legal: the callback is called twice. -/
theorem C58_callback_witness :
    callbackExample.map (fun x => x.2.1.runner.env.user.map (fun y => (y.1, y.2.1, y.2.2.pos (1, 1), y.2.2.pos (0, 0)))) =
      some [(.b, some (1, 1), some .b, none), (.w, none, some .b, none)] ∧
    callbackExample.map (fun x => x.2.1.result.map GameResult.describe) = some (some "two beat one W+F (forfeit by one: attempted move to occupied point B2)".toList) := by
  refine ⟨by decide +kernel, by decide +kernel⟩

end Gomill.Gtp
