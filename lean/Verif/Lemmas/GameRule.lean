import Verif.Props.GameRunner
/-
A rule for reasoning about Game_runner.run with a particular kind of backend: an invariant of the backend's state, before and
after the end of the game, and the possible exceptions.
-/
namespace Gomill
open Py Go

variable {σ : Type} {n : Nat} {b0 : Board} {first : Colour} {limit : Option Int} {h : List Mv} {e : Option Ending}

/-- What holds after a backend method: the invariant and something about the value, or something about the exception. -/
def Post {α : Type} (I : σ → Prop) (E : σ → GExc → Prop) (Q : α → Prop) : Except GExc α × σ → Prop
  | (.ok a, s) => I s ∧ Q a
  | (.error e, s) => E s e

/-- What holds after score_game, including the exceptions making a Result can raise. -/
def ScorePost (fmt : Rat → Str) (I : σ → Prop) (E : σ → GExc → Prop) : Except GExc GameScore × σ → Prop
  | (.ok s, env) => I env ∧ ∀ x, Res.fromGameScore fmt s = .error x → E env x
  | (.error x, env) => E env x

/-- The backend keeps the invariant `I` (the flag says whether the game is over), and every exception satisfies `E`. -/
structure Keeps (B : Backend σ) (n : Nat) (fmt : Rat → Str) (I : Bool → σ → Prop) (E : Bool → σ → GExc → Prop) : Prop where
  endGame : ∀ env : σ, I false env → ∃ env', B.endGame env = (.ok (), env') ∧ I true env'
  getMove : ∀ (c : Colour) (env : σ), I false env → Post (I false) (E false) (fun act : Act => act ≠ .bad ∧ ∀ p, act = .move (some p) → OnBoard n p) (B.getMove c env)
  comment : ∀ (o : Bool) (c : Colour) (env : σ), I o env → Post (I o) (E o) (fun _ : Option Str => True) (B.getLastMoveComment c env)
  notifyMove : ∀ (o : Bool) (c : Colour) (m : Option Pt) (env : σ), I o env → (∀ p, m = some p → OnBoard n p) →
    Post (I o) (E o) (fun sm : Status × Option Str => sm.1 ≠ .bad) (B.notifyMove c m env)
  scoreGame : ∀ (b : Board) (env : σ), I true env →
    ScorePost fmt (I true) (E true) (B.scoreGame b env)
  afterMove : ∀ (o : Bool) (c : Colour) (m : Option Pt) (b : Board) (env : σ), I o env → (∀ p, m = some p → OnBoard n p) → BoardInv n b →
    Post (I o) (E o) (fun _ : Unit => True) (B.afterMove c m b env)

variable {B : Backend σ} {fmt : Rat → Str} {I : Bool → σ → Prop} {E : Bool → σ → GExc → Prop}

/-- What holds after part of a run. -/
def RunPost (I : Bool → σ → Prop) (E : Bool → σ → GExc → Prop) {α : Type} (Q : α → Run σ → Prop) : Except GExc α × Run σ → Prop
  | (.ok a, s) => I s.game.isOver s.r.env ∧ Q a s
  | (.error x, s) => E s.game.isOver s.r.env x

theorem runPost_then {α β : Type} {Q : α → Run σ → Prop} {Q' : β → Run σ → Prop} {x : Except GExc α × Run σ} {k : α → Run σ → Except GExc β × Run σ}
    (hx : RunPost I E Q x) (hk : ∀ a s, I s.game.isOver s.r.env → Q a s → RunPost I E Q' (k a s)) : RunPost I E Q' (andThen x k) := by
  obtain ⟨x | a, s⟩ := x
  · exact hx
  · exact hk a s hx.1 hx.2

theorem runPost_call {α : Type} {Q : α → Prop} (s : Run σ) (f : σ → Except GExc α × σ) (hf : Post (I s.game.isOver) (E s.game.isOver) Q (f s.r.env)) :
    RunPost I E (fun a s' => s'.game = s.game ∧ Q a) (s.call f) := by
  unfold Run.call
  revert hf
  obtain ⟨x | a, env⟩ := f s.r.env
  · exact id
  · exact fun hf => ⟨hf.1, rfl, hf.2⟩

/-- A record_... method which succeeds, and calls the game-over callback if it ends the game. -/
theorem runPost_record (K : Keeps B n fmt I E) (s : Run σ) (f : Game → Except GExc Unit × Game) {g : Game} (hf : f s.game = (.ok (), g))
    (ho : s.game.isOver = false) (hi : I false s.r.env) (hover : g.isOver = false → g.overCalls = s.game.overCalls)
    (hover' : g.isOver = true → g.overCalls ≠ s.game.overCalls) :
    RunPost I E (fun _ s' => s'.game = g) (s.record B f) := by
  unfold Run.record
  simp only [hf]
  cases hg : g.isOver with
  | false =>
    rw [if_pos (hover hg)]
    exact ⟨by rw [hg]; exact hi, rfl⟩
  | true =>
    rw [if_neg (hover' hg)]
    obtain ⟨env', e1, e2⟩ := K.endGame _ hi
    unfold Run.call
    simp only [e1]
    exact ⟨by rw [hg]; exact e2, rfl⟩

theorem setDiag_game (s : Run σ) (c : Colour) (m : Option Str) :
    (s.setFinalDiagnostics c m).game = s.game ∧ (s.setFinalDiagnostics c m).r.env = s.r.env := by
  unfold Run.setFinalDiagnostics
  cases m <;> exact ⟨rfl, rfl⟩

theorem over_calls_forfeit (g : Game) (c : Colour) (r : Option Str) (ho : g.isOver = false) :
    ∃ g', g.recordForfeitBy c r = (.ok (), g') ∧ g'.isOver = true ∧ g'.overCalls = g.overCalls + 1 := by
  unfold Game.recordForfeitBy
  rw [if_neg (by simp [ho])]
  exact ⟨_, rfl, rfl, rfl⟩

theorem over_calls_resign (g : Game) (c : Colour) (ho : g.isOver = false) :
    ∃ g', g.recordResignationBy c = (.ok (), g') ∧ g'.isOver = true ∧ g'.overCalls = g.overCalls + 1 := by
  unfold Game.recordResignationBy
  rw [if_neg (by simp [ho])]
  exact ⟨_, rfl, rfl, rfl⟩

theorem over_calls_claim (g : Game) (c : Colour) (ho : g.isOver = false) :
    ∃ g', g.recordClaimBy c = (.ok (), g') ∧ g'.isOver = true ∧ g'.overCalls = g.overCalls + 1 := by
  unfold Game.recordClaimBy
  rw [if_neg (by simp [ho])]
  exact ⟨_, rfl, rfl, rfl⟩

theorem over_calls_finish (g : Game) (c : Colour) (ho : g.isOver = false) :
    ((g.finishMove c).isOver = false → (g.finishMove c).overCalls = g.overCalls) ∧
    ((g.finishMove c).isOver = true → (g.finishMove c).overCalls = g.overCalls + 1) := by
  unfold Game.finishMove
  simp only
  split
  · simp [Game.setOver]
  · split
    · simp [ho]
    · split
      · simp [Game.setOver]
      · simp [ho]

theorem over_calls_move (g : Game) (c : Colour) (m : Option Pt) (g' : Game) (hm : g.recordMove c m = (.ok (), g')) (ho : g.isOver = false) :
    (g'.isOver = false → g'.overCalls = g.overCalls) ∧ (g'.isOver = true → g'.overCalls = g.overCalls + 1) := by
  have hill : ∀ (g1 : Game) (p : Pt) (what : String), g1.isOver = false → g1.overCalls = g.overCalls → g1.forfeitIllegal c p what = (.ok (), g') →
      (g'.isOver = false → g'.overCalls = g.overCalls) ∧ (g'.isOver = true → g'.overCalls = g.overCalls + 1) := by
    intro g1 p what h1 h2 h
    unfold Game.forfeitIllegal at h
    split at h
    · cases h
    · rename_i v _
      obtain ⟨g2, a1, a2, a3⟩ := over_calls_forfeit g1 c (some (what.toList ++ v)) h1
      rw [a1] at h
      cases h
      rw [a2]
      exact ⟨(fun h => nomatch h), fun _ => by rw [a3, h2]⟩
  unfold Game.recordMove at hm
  rw [if_neg (by simp [ho])] at hm
  split at hm
  · cases hm
  · split at hm
    · simp only at hm
      split at hm
      · exact hill { g with passCount := 0 } _ _ ho rfl hm
      · split at hm
        · exact hill { g with passCount := 0 } _ _ ho rfl hm
        · cases hm
        · cases hm
          exact over_calls_finish _ c ho
    · cases hm
      exact over_calls_finish _ c ho

/-- On a live game, record_move by the player whose turn it is succeeds for any point on the board and any pass. -/
theorem recordMove_ok (hn : n ≤ 25) (hb : ReachableBoard n b0) {g : Game} (hp : Played n b0 first limit h e g) (ho : g.isOver = false)
    (m : Option Pt) (hm : ∀ p, m = some p → OnBoard n p) : ∃ g', g.recordMove (toPlay first h.length) m = (.ok (), g') := by
  cases m with
  | none =>
    obtain ⟨g', h1, _⟩ := C28_pass hn hb hp ho
    exact ⟨g', h1⟩
  | some p =>
    obtain ⟨g', h1, _⟩ := C28_legality hn hb hp ho p (hm p rfl)
    exact ⟨g', h1⟩

theorem endedByPlayer_keeps (K : Keeps B n fmt I E) (c : Colour) (s : Run σ) (hi : I s.game.isOver s.r.env) :
    RunPost I E (fun _ s' => s'.game = s.game) (endedByPlayer B c s) := by
  unfold endedByPlayer
  refine runPost_then (runPost_call s _ (K.comment _ c _ hi)) ?_
  intro a s' hi' hq
  obtain ⟨d1, d2⟩ := setDiag_game s' c a
  refine ⟨by rw [d1, d2]; exact hi', d1.trans hq.1⟩

theorem playMove_keeps (K : Keeps B n fmt I E) (hn : n ≤ 25) (hb : ReachableBoard n b0) {s : Run σ}
    (hp : Played n b0 first limit h e s.game) (ho : s.game.isOver = false) (hi : I false s.r.env)
    (m : Option Pt) (hm : ∀ p, m = some p → OnBoard n p) :
    RunPost I E (fun _ _ => True) (playMove B (toPlay first h.length) m s) := by
  generalize hc : toPlay first h.length = c
  obtain ⟨g', hg⟩ := recordMove_ok hn hb hp ho m hm
  rw [hc] at hg
  obtain ⟨o1, o2⟩ := over_calls_move _ _ _ _ hg ho
  unfold playMove
  refine runPost_then (runPost_record K s _ hg ho hi o1 (fun h => by rw [o2 h]; omega)) ?_
  intro _ s1 h1 e1
  refine runPost_then (runPost_call s1 _ (K.comment _ c _ h1)) ?_
  intro comment s2 h2 e2
  split
  · obtain ⟨d1, d2⟩ := setDiag_game s2 c comment
    exact ⟨by rw [d1, d2]; exact h2, trivial⟩
  · rename_i hsf
    refine runPost_then (runPost_call s2 _ (K.notifyMove _ c.opponent m _ h2 hm)) ?_
    intro sm s3 h3 e3
    have hboard : ∀ (s3 : Run σ) (e3 : s3.game = s2.game ∧ sm.1 ≠ Status.bad), BoardInv n s3.game.board := by
      intro s3 e3
      rw [e3.1, e2.1, e1]
      rw [e2.1, e1] at hsf
      exact ((Played.move c m hp hm hg (by simpa using hsf)).inv hn hb.inv).board
    rw [if_neg e3.2]
    split
    · rename_i hcond
      have ho3 : s3.game.isOver = false := by simpa using hcond.1
      obtain ⟨g4, a1, a2, a3⟩ := over_calls_forfeit s3.game (if sm.1 = Status.reject then c else c.opponent) sm.2 ho3
      refine runPost_then (runPost_record K s3 (fun g => g.recordForfeitBy (if sm.1 = Status.reject then c else c.opponent) sm.2) a1 ho3
        (by rw [ho3] at h3; exact h3) (by rw [a2]; exact fun h => nomatch h) (fun _ => by rw [a3]; omega)) ?_
      intro _ s4 h4 _
      obtain ⟨d1, d2⟩ := setDiag_game s4 c comment
      exact ⟨by rw [d1, d2]; exact h4, trivial⟩
    · have := runPost_call (I := I) (E := E) (Q := fun _ => True) ({ s3 with r := { s3.r with moves := s3.r.moves ++ [(c, m, comment)] } } : Run σ) (B.afterMove c m s3.game.board)
        (K.afterMove _ c m _ _ h3 hm (hboard s3 e3))
      revert this
      show RunPost _ _ _ _ → RunPost _ _ _ _
      generalize ({ s3 with r := { s3.r with moves := s3.r.moves ++ [(c, m, comment)] } } : Run σ).call (B.afterMove c m s3.game.board) = z
      obtain ⟨x | a, s4⟩ := z
      · exact id
      · exact fun hz => ⟨hz.1, trivial⟩

theorem doMove_keeps (K : Keeps B n fmt I E) (hn : n ≤ 25) (hb : ReachableBoard n b0) {s : Run σ}
    (hp : Played n b0 first limit h e s.game) (ho : s.game.isOver = false) (hi : I false s.r.env) :
    RunPost I E (fun _ _ => True) (doMove B s) := by
  have hnext := (hp.inv hn hb.inv).next
  rw [ho] at hnext
  simp only [Bool.false_eq_true, if_false] at hnext
  unfold doMove
  rw [hnext]
  simp only
  generalize hc : toPlay first h.length = c
  have hgm := K.getMove c _ hi
  refine runPost_then (runPost_call s _ (by rw [ho]; exact hgm)) ?_
  intro act s1 h1 hq
  have ho1 : s1.game.isOver = false := by rw [hq.1]; exact ho
  rw [ho1] at h1
  have ended : ∀ (f : Game → Except GExc Unit × Game), (∃ g', f s1.game = (.ok (), g') ∧ g'.isOver = true ∧ g'.overCalls = s1.game.overCalls + 1) →
      RunPost I E (fun _ _ => True) (andThen (s1.record B f) fun _ s => endedByPlayer B c s) := by
    rintro f ⟨g', a1, a2, a3⟩
    refine runPost_then (runPost_record K s1 f a1 ho1 h1 (by rw [a2]; exact fun h => nomatch h) (fun _ => by rw [a3]; omega)) ?_
    intro _ s2 h2 _
    have := endedByPlayer_keeps K c s2 h2
    revert this
    generalize endedByPlayer B c s2 = z
    obtain ⟨x | a, s4⟩ := z
    · exact id
    · exact fun hz => ⟨hz.1, trivial⟩
  cases act with
  | forfeit msg => exact ended (fun g => g.recordForfeitBy c (some msg)) (over_calls_forfeit s1.game c (some msg) ho1)
  | resign => exact ended (fun g => g.recordResignationBy c) (over_calls_resign s1.game c ho1)
  | claim => exact ended (fun g => g.recordClaimBy c) (over_calls_claim s1.game c ho1)
  | move m =>
    have := playMove_keeps K hn hb (s := s1) (by rw [hq.1]; exact hp) ho1 h1 m (fun p hpm => hq.2.2 p (by rw [hpm]))
    rw [hc] at this
    exact this
  | bad => exact absurd rfl hq.2.1

theorem runLoop_keeps (K : Keeps B n fmt I E) (hn : n ≤ 25) (hb : ReachableBoard n b0) : ∀ (fuel : Nat) (s : Run σ) (h : List Mv)
    (e : Option Ending), Played n b0 first limit h e s.game →
    (s.game.isOver = false → movesOf s.r = h) → I s.game.isOver s.r.env → ∀ x, runLoop B fuel s = some x →
    RunPost I E (fun _ s' => s'.game.isOver = true) x := by
  intro fuel
  induction fuel with
  | zero =>
    intro s h e hp hm hi x hx
    rw [runLoop] at hx
    split at hx
    · rename_i ho
      cases hx
      exact ⟨hi, ho⟩
    · cases hx
  | succ fuel ih =>
    intro s h e hp hm hi x hx
    rw [runLoop] at hx
    split at hx
    · rename_i ho
      cases hx
      exact ⟨hi, ho⟩
    · rename_i ho
      have ho' : s.game.isOver = false := by simpa using ho
      have ht := doMove_spec hn hb B (hm ho') hp ho'
      have hk := doMove_keeps K hn hb hp ho' (by rw [ho'] at hi; exact hi)
      rcases hd : doMove B s with ⟨y | y, s'⟩
      · rw [hd] at hx hk
        cases hx
        exact hk
      · rw [hd] at hx ht hk
        obtain ⟨h1, h2, h', e', h3, h4, h5⟩ := ht
        exact ih s' h' e' h3 (fun z => (h5 z).1) hk.1 x hx

/-- The rule for Game_runner.run. -/
theorem run_keeps (K : Keeps B n fmt I E) {r : Runner σ} (hr : r.moves = [] ∧ r.result = none) (hsize : r.boardSize = n) (hn : n ≤ 25)
    (hi : I false r.env) (hst : r.state = 1 ∨ r.state = 2) (hmake : ∃ g, r.makeGame = .ok g) (fuel : Nat) (x)
    (hx : r.run B fmt fuel = some x) :
    ∃ g, x.2.2 = some g ∧ match x.1 with
      | .ok () => g.isOver = true ∧ I true x.2.1.env ∧ x.2.1.result ≠ none
      | .error e => E g.isOver x.2.1.env e ∧ x.2.1.result = none := by
  obtain ⟨g0, hg0⟩ := hmake
  unfold Runner.run at hx
  rw [if_neg (by rcases hst with h | h <;> simp [h])] at hx
  rw [hg0] at hx
  simp only at hx
  obtain ⟨b0, first, hsb, hgi, _⟩ := makeGame_spec hg0
  have hb : ReachableBoard n b0 := hsize ▸ hsb.reachable
  obtain ⟨hmv, hres⟩ := hr
  have hp : Played n b0 first r.moveLimit [] none g0 := by rw [hgi]; exact Played.start
  have hm0 : movesOf ({ r with state := 3 } : Runner σ) = [] := by unfold movesOf; rw [hmv]; rfl
  cases hl : runLoop B fuel ⟨{ r with state := 3 }, g0⟩ with
  | none => rw [hl] at hx; cases hx
  | some y =>
    rw [hl] at hx
    simp only [Option.some.injEq] at hx
    subst hx
    have h1 := runLoop_keeps K hn hb fuel ⟨{ r with state := 3 }, g0⟩ [] none hp (fun _ => hm0)
      (by rw [show (⟨{ r with state := 3 }, g0⟩ : Run σ).game.isOver = false by rw [hgi]; rfl]; exact hi) y hl
    have h2 := runLoop_spec hn hb B fuel ⟨{ r with state := 3 }, g0⟩ [] none hp (.inl hm0) (fun _ => hm0) y hl
    obtain ⟨ya, s⟩ := y
    cases ya with
    | error x => exact ⟨_, rfl, h1, by rw [← hres]; exact h2.1⟩
    | ok u =>
      obtain ⟨hi', hov⟩ := h1
      obtain ⟨hr1, _, h', e', hpl, _, _⟩ := h2
      have hsr : s.r.result = none := by rw [← hres]; exact hr1
      simp only [hov] at hi'
      unfold andThen setResult
      simp only
      split
      · have hs := K.scoreGame s.game.board _ hi'
        simp only [Run.call]
        unfold andThen
        revert hs
        cases hsg : B.scoreGame s.game.board s.r.env with
        | mk sc env' =>
          cases sc with
          | error x => exact fun hs => ⟨_, rfl, by simp only [hov]; exact hs, hsr⟩
          | ok sc =>
            simp only
            intro hs
            split
            · rename_i x hx
              exact ⟨_, rfl, by simp only [hov]; exact hs.2 x hx, hsr⟩
            · exact ⟨_, rfl, hov, hs.1, by simp⟩
      · rename_i hpo
        have hun := C30_unscored hn hb hpl hov (by simpa using hpo)
        split
        · rename_i x hx
          obtain ⟨res, hres', _⟩ := hun
          rw [hx] at hres'
          cases hres'
        · exact ⟨_, rfl, hov, hi', by simp⟩

end Gomill
