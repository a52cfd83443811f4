import Verif.Props.Game
import Mathlib.Algebra.Order.Group.Abs
import Mathlib.Algebra.Order.Ring.Rat
import Mathlib.Tactic.Positivity
/-
C29, C30: scores and results (gameplay.py, gtp_games.py).
-/
namespace Gomill
open Py Go

/-- The points deducted from Black for the handicap. -/
def compensationPoints (comp : Compensation) (handicap : Int) : Int :=
  match comp with
  | .no => 0
  | .full => handicap
  | .short => if handicap = 0 then 0 else handicap - 1

/-- Black's net score. -/
def netScore (raw : Int) (komi : Rat) (comp : Compensation) (handicap : Int) : Rat :=
  raw - komi - compensationPoints comp handicap

/-- C29: the winner is the side ahead on net score (nobody exactly for a tie), and the margin is how far ahead. -/
theorem C29_adjust_score (raw : Int) (komi : Rat) (comp : Compensation) (handicap : Int) :
    let r := adjustScore raw komi comp handicap
    let net := netScore raw komi comp handicap
    (r.1 = some .b ↔ 0 < net) ∧ (r.1 = some .w ↔ net < 0) ∧ (r.1 = none ↔ net = 0) ∧ r.2 = |net| ∧
    0 ≤ r.2 ∧ (r.2 = 0 ↔ r.1 = none) := by
  intro r net
  have hnet : ∀ s : Rat, s = net → r = if s > 0 then (some .b, s) else if s < 0 then (some .w, -s) else (none, 0) := by
    intro s hs
    have hs' : (if handicap ≠ 0 then
      match comp with
      | .full => (raw : Rat) - komi - handicap
      | .short => (raw : Rat) - komi - (handicap - 1)
      | .no => (raw : Rat) - komi
    else (raw : Rat) - komi) = s := by
      rw [hs]
      by_cases hh : handicap = 0
      · subst hh; cases comp <;> simp [net, netScore, compensationPoints]
      · cases comp <;> simp [net, netScore, compensationPoints, hh]
    rw [← hs']
    rfl
  have hr := hnet net rfl
  rw [hr]
  rcases lt_trichotomy net 0 with h | h | h
  · rw [if_neg (not_lt.2 h.le), if_pos h]
    simp [h, h.ne, not_lt.2 h.le, abs_of_neg h, h.le]
  · rw [if_neg (by rw [h]; exact lt_irrefl 0), if_neg (by rw [h]; exact lt_irrefl 0)]
    simp [h]
  · rw [if_pos h]
    simp [h, h.ne', not_lt.2 h.le, abs_of_pos h, h.le]

/-- C29: a Game_score (and a Result) can be made from any combination except: a winner with margin 0, no winner with
another margin, or a negative margin. -/
theorem C29_game_score (winner : Option Colour) (margin : Option Num) :
    GameScore.make winner margin =
      if (∃ m, margin = some m ∧ (m.isNeg = true ∨ (m.isZero = true ↔ winner ≠ none))) then .error (.py .valueError)
      else .ok ⟨winner, margin, false⟩ := by
  unfold GameScore.make
  cases margin with
  | none => simp
  | some m =>
    cases winner <;> cases hz : m.isZero <;> cases hn : m.isNeg <;> simp [hz, hn]

/-- C29: scoring a position never raises; the winner is the side whose area (less komi and compensation) is larger. -/
theorem C29_from_position (board : Board) (komi : Rat) (comp : Compensation) (handicap : Int) :
    ∃ s, GameScore.fromPosition board komi comp handicap = .ok s ∧ s.scorersDisagreed = false ∧
      s.margin = some (.fin |netScore board.areaScore komi comp handicap|) ∧
      (s.winner = some .b ↔ 0 < netScore board.areaScore komi comp handicap) ∧
      (s.winner = some .w ↔ netScore board.areaScore komi comp handicap < 0) := by
  obtain ⟨h1, h2, h3, h4, h5, h6⟩ := C29_adjust_score board.areaScore komi comp handicap
  unfold GameScore.fromPosition
  simp only at h1 h2 h3 h4 h5 h6 ⊢
  rw [C29_game_score, if_neg]
  · exact ⟨_, rfl, rfl, by rw [h4], h1, h2⟩
  · rintro ⟨m, hm, hor⟩
    cases hm
    simp only [Num.isNeg, Num.isZero, decide_eq_true_eq] at hor
    rcases hor with hor | hor
    · exact absurd hor (not_lt.2 h5)
    · rw [h6] at hor
      by_cases hx : (adjustScore board.areaScore komi comp handicap).1 = none
      · exact (hor.1 hx) hx
      · exact hx (hor.2 hx)

/-- C29: the Result of a scored position: the winner's letter and the margin, or '0' for a jigo. -/
theorem C29_result (fmt : Rat → Str) (board : Board) (komi : Rat) (comp : Compensation) (handicap : Int) (s : GameScore)
    (hs : GameScore.fromPosition board komi comp handicap = .ok s) :
    ∃ r, Res.fromGameScore fmt s = .ok r ∧ r.winningColour = s.winner ∧ r.isForfeit = false ∧ r.detail = none ∧
      (r.isJigo = true ↔ netScore board.areaScore komi comp handicap = 0) ∧
      (s.winner = none → r.sgfResult = ['0']) ∧
      (∀ c, s.winner = some c → ∃ t, formatFloat fmt (.fin |netScore board.areaScore komi comp handicap|) = .ok t ∧
        r.sgfResult = [c.upper, '+'] ++ t) := by
  obtain ⟨s', hs', h1, h2, h3, h4⟩ := C29_from_position board komi comp handicap
  rw [hs] at hs'; cases hs'
  have hdet : s.getDetail = none := by simp [GameScore.getDetail, h1, h2]
  unfold Res.fromGameScore Res.fromScore
  rw [h2, hdet]
  generalize netScore board.areaScore komi comp handicap = net at *
  have hneg : (Num.fin |net|).isNeg = false := by simp [Num.isNeg]
  simp only [hneg, Bool.false_eq_true, if_false]
  cases hw : s.winner with
  | none =>
    have hz : net = 0 := by
      rw [hw] at h3 h4
      simp at h3 h4
      exact le_antisymm h3 h4
    subst hz
    exact ⟨_, rfl, rfl, rfl, rfl, by simp [Res.setJigo], fun _ => rfl, by simp⟩
  | some c =>
    have hz : net ≠ 0 := by
      intro hz; subst hz; rw [hw] at h3 h4; cases c <;> simp at h3 h4
    have hz' : (Num.fin |net|).isZero = false := by simp [Num.isZero, hz]
    simp only [hz', Bool.false_eq_true, if_false, formatFloat]
    exact ⟨_, rfl, rfl, rfl, rfl, by simp [Res.withWinner, hz], by simp, by rintro c' ⟨⟩; exact ⟨_, rfl, rfl⟩⟩

theorem C29_witness : adjustScore 7 (13/2) .short 3 = (some .w, 3/2) ∧ adjustScore 7 7 .no 4 = (none, 0) := by
  constructor <;> decide +kernel

/-! ## C30 -/

/-- Any Game_result the program makes: from a score or from an unscored game, then players, game id, and CPU times. -/
inductive MadeResult (fmt : Rat → Str) : GameResult → Prop
  | scored {s : GameScore} {r : Res} (b w : Str) : Res.fromGameScore fmt s = .ok r → MadeResult fmt (.setPlayers r b w)
  | unscored {g : Game} {r : Res} (b w : Str) : Res.fromUnscoredGame g = .ok r → MadeResult fmt (.setPlayers r b w)
  | gameId {r : GameResult} (i : Option Str) : MadeResult fmt r → MadeResult fmt { r with gameId := i }
  | cpuTime {r : GameResult} (c : Colour) (t : CpuTime) : MadeResult fmt r → t ≠ .unknown →
      MadeResult fmt (r.softUpdate1 c t)

theorem fromScore_jigo {fmt : Rat → Str} {w : Option Colour} {m : Option Num} {d : Option Str} {r : Res}
    (h : Res.fromScore fmt w m d = .ok r) : r.isJigo = decide (r.sgfResult = ['0']) := by
  unfold Res.fromScore at h
  cases m with
  | none =>
    cases h
    cases w with
    | none => rfl
    | some c => cases c <;> rfl
  | some m =>
    simp only at h
    split at h
    · cases h
    · cases w with
      | none =>
        simp only at h
        split at h
        · cases h; rfl
        · cases h
      | some c =>
        simp only at h
        split at h
        · cases h
        · split at h
          · cases h
          · cases h
            cases c <;> simp [Res.withWinner, Colour.upper]

theorem fromUnscored_jigo {g : Game} {r : Res} (h : Res.fromUnscoredGame g = .ok r) :
    r.isJigo = decide (r.sgfResult = ['0']) := by
  unfold Res.fromUnscoredGame at h
  simp only at h
  split at h
  · cases h
  · split at h
    · cases h
    · split at h
      · cases h; simp [Res.withWinner]
      · split at h
        · cases h
          cases hw : g.winner with
          | none => simp [Res.withWinner]
          | some c => cases c <;> simp [Res.withWinner, Colour.upper]
        · split at h
          · cases h
            cases hw : g.winner with
            | none => simp [Res.withWinner]
            | some c => cases c <;> simp [Res.withWinner, Colour.upper]
          · split at h
            · cases h
              cases hw : g.winner with
              | none => simp [Res.withWinner]
              | some c => cases c <;> simp [Res.withWinner, Colour.upper]
            · cases h

structure RInv (r : GameResult) : Prop where
  jigo : r.res.isJigo = decide (r.res.sgfResult = ['0'])
  players : r.players = (r.playerB, r.playerW)
  winner : r.winningPlayer = playerGet r.players r.res.winningColour
  times : ∀ kv ∈ r.cpuTimes, kv.2 ≠ .unknown

theorem rinv_setPlayers {r : Res} (h : r.isJigo = decide (r.sgfResult = ['0'])) (b w : Str) :
    RInv (.setPlayers r b w) := by
  refine ⟨h, rfl, rfl, ?_⟩
  intro kv hkv
  simp only [GameResult.setPlayers] at hkv
  split at hkv <;> simp at hkv
  · subst hkv; simp
  · rcases hkv with rfl | rfl <;> simp

theorem MadeResult.inv {fmt : Rat → Str} {r : GameResult} (h : MadeResult fmt r) : RInv r := by
  induction h with
  | scored b w h => exact rinv_setPlayers (fromScore_jigo h) b w
  | unscored b w h => exact rinv_setPlayers (fromUnscored_jigo h) b w
  | gameId i _ ih => exact ⟨ih.jigo, ih.players, ih.winner, ih.times⟩
  | @cpuTime r c t _ ht ih =>
    unfold GameResult.softUpdate1
    simp only
    split
    · refine ⟨ih.jigo, ih.players, ih.winner, ?_⟩
      intro kv hkv
      simp only [assocSet, List.mem_map] at hkv
      obtain ⟨kv', h1, rfl⟩ := hkv
      cases c <;> dsimp only <;> split
      · exact ht
      · exact ih.times kv' h1
      · exact ht
      · exact ih.times kv' h1
    · exact ih

/-- C30: pickling and unpickling gives back the same Game_result, in every attribute. -/
theorem C30_pickle_round_trip (fmt : Rat → Str) {r : GameResult} (h : MadeResult fmt r) :
    GameResult.ofState r.getState = r := by
  obtain ⟨h1, h2, h3, h4⟩ := h.inv
  obtain ⟨⟨wc, ij, iff', sr, d⟩, gid, pl, pb, pw, wp, ct⟩ := r
  have h1' : ij = decide (sr = ['0']) := h1
  have h2' : pl = (pb, pw) := h2
  have h3' : wp = playerGet pl wc := h3
  clear h1 h2 h3 h
  subst h1' h2' h3'
  simp only [GameResult.ofState, GameResult.getState, GameResult.mk.injEq, and_true, true_and]
  refine ⟨rfl, ?_⟩
  have : ct.map (fun kv => if kv.2 = CpuTime.unknown then (kv.1, CpuTime.none) else kv) = ct.map id := by
    apply List.map_congr_left
    intro kv hkv
    rw [if_neg (h4 kv hkv)]; rfl
  rw [this, List.map_id]

/-- C30: in particular all the derived attributes and the description agree. -/
theorem C30_derived (fmt : Rat → Str) {r : GameResult} (h : MadeResult fmt r) :
    let r' := GameResult.ofState r.getState
    r'.res.winningColour = r.res.winningColour ∧ r'.winningPlayer = r.winningPlayer ∧ r'.losingPlayer = r.losingPlayer ∧
    r'.res.isJigo = r.res.isJigo ∧ r'.res.isUnknown = r.res.isUnknown ∧ r'.res.sgfResult = r.res.sgfResult ∧
    r'.describe = r.describe := by
  intro r'
  have : r' = r := C30_pickle_round_trip fmt h
  rw [this]
  simp

/-- C30: the players' names match the colours. -/
theorem C30_players (fmt : Rat → Str) {r : GameResult} (h : MadeResult fmt r) :
    (∀ c, r.res.winningColour = some c →
      r.winningPlayer = some (match c with | .b => r.playerB | .w => r.playerW) ∧
      r.losingPlayer = some (match c with | .b => r.playerW | .w => r.playerB)) ∧
    (r.res.winningColour = none → r.winningPlayer = none ∧ r.losingPlayer = none) := by
  obtain ⟨h1, h2, h3, h4⟩ := h.inv
  unfold GameResult.losingPlayer
  rw [h3, h2]
  constructor
  · intro c hc
    rw [hc]
    cases c <;> simp [playerGet, Colour.opponent]
  · intro hc
    rw [hc]
    simp [playerGet]

/-- C30: a game which is over without two passes always has a Result (the AssertionError can't happen); it names the winner
and its form tells how the game ended; a forfeit has a winner. -/
theorem C30_unscored {n : Nat} {b0 : Board} {first : Colour} {limit : Option Int} {h : List Mv} {e : Option Ending} {g : Game}
    (hn : n ≤ 25) (hb : ReachableBoard n b0) (hp : Played n b0 first limit h e g) (ho : g.isOver = true)
    (hnp : g.passedOut = false) :
    ∃ r, Res.fromUnscoredGame g = .ok r ∧ r.winningColour = e.map Ending.winner ∧ r.isJigo = false ∧
      (r.isForfeit = true ↔ g.seenForfeit = true) ∧
      (e = none → r.sgfResult = "Void".toList ∧ r.detail = some "hit move limit".toList) ∧
      (∀ c, e = some (.resigned c) → r.sgfResult = [c.opponent.upper, '+', 'R'] ∧ r.detail = none) ∧
      (∀ c, e = some (.claimed c) → r.sgfResult = [c.upper, '+'] ∧ r.detail = some "claim".toList) ∧
      (∀ c x, e = some (.forfeited c x) → r.sgfResult = [c.opponent.upper, '+', 'F'] ∧ r.detail = x) ∧
      (∀ c p, e = some (.illegal c p) → r.sgfResult = [c.opponent.upper, '+', 'F'] ∧ r.detail = g.forfeitReason) := by
  have hi := hp.inv hn hb.inv
  have hw := hi.winner
  have h3 := hi.passedOut; have h4 := hi.hitLimit
  have h5 := hi.resigned; have h6 := hi.claimed; have h7 := hi.forfeited
  have ho' := hi.over.1 ho
  have htp : ¬ TwoPasses h := by intro x; rw [h3.2 x] at hnp; cases hnp
  have hreason := hi.reason
  unfold Res.fromUnscoredGame
  cases e with
  | none =>
    have hl : g.hitMoveLimit = true := by
      apply h4.2
      rcases ho' with hx | hx | hx
      · exact absurd rfl hx
      · exact absurd hx htp
      · exact ⟨hx, htp⟩
    simp at h7 hw
    simp [ho, hnp, hl, hw, h7, Res.withWinner]
  | some x =>
    have hl : g.hitMoveLimit = false := by
      rw [Bool.eq_false_iff]; intro y; exact (hi.excl (by simp)).2 (h4.1 y).1
    cases x with
    | resigned c =>
      simp at h5 h7 hw
      simp [ho, hnp, hl, hw, h5, h7, Res.withWinner, Ending.winner]
    | claimed c =>
      simp at h5 h6 h7 hw
      simp [ho, hnp, hl, hw, h5, h6, h7, Res.withWinner, Ending.winner]
    | forfeited c x =>
      simp at h5 h6 h7 hw
      have hr := hreason c x rfl
      simp [ho, hnp, hl, hw, h5, h6, h7, Res.withWinner, Ending.winner, hr]
    | illegal c x =>
      simp at h5 h6 h7 hw
      simp [ho, hnp, hl, hw, h5, h6, h7, Res.withWinner, Ending.winner]

/-- The player of a colour. -/
def GameResult.playerOf (r : GameResult) : Colour → Str
  | .b => r.playerB
  | .w => r.playerW

theorem lookup_assocSet (l : List (Str × CpuTime)) (k k' : Str) (t : CpuTime) :
    (assocSet l k t).lookup k' = if k' = k then (l.lookup k).map (fun _ => t) else l.lookup k' := by
  induction l with
  | nil => simp [assocSet]
  | cons x l ih =>
    obtain ⟨a, v⟩ := x
    unfold assocSet at ih ⊢
    rw [List.map_cons]
    by_cases ha : a = k
    · subst ha
      simp only [if_true, List.lookup_cons]
      by_cases hk : k' = a
      · subst hk; simp
      · have : (k' == a) = false := by simpa using hk
        simp only [this, hk, if_false] at ih ⊢
        rw [ih]
    · simp only [ha, if_false, List.lookup_cons]
      by_cases hk : k' = a
      · subst hk; simp [ha]
      · have h1 : (k' == a) = false := by simpa using hk
        have h2 : (k == a) = false := by simpa using fun h : k = a => ha h.symm
        rw [h1, h2]
        exact ih

theorem softUpdate1_eq (fmt : Rat → Str) {r : GameResult} (h : MadeResult fmt r) (c : Colour) (t : CpuTime) :
    r.softUpdate1 c t = match r.cpuTimes.lookup (r.playerOf c) with
      | some .none => { r with cpuTimes := assocSet r.cpuTimes (r.playerOf c) t }
      | _ => r := by
  unfold GameResult.softUpdate1
  cases c <;> simp only [GameResult.playerOf, h.inv.players] <;> rfl

/-- C30: after set_players no CPU time is known. soft_update_cpu_times sets the CPU time of the player of that colour if it isn't known;
it never changes a time which is known, or another player's, or anything else in the result. -/
theorem C30_cpu_times (fmt : Rat → Str) :
    (∀ (r : Res) (b w : Str) (c : Colour), (GameResult.setPlayers r b w).cpuTimes.lookup ((GameResult.setPlayers r b w).playerOf c) = some .none) ∧
    (∀ (r : GameResult), MadeResult fmt r → ∀ (c : Colour) (t : CpuTime),
      (∀ v, r.cpuTimes.lookup (r.playerOf c) = some v → (r.softUpdate1 c t).cpuTimes.lookup (r.playerOf c) = some (if v = .none then t else v)) ∧
      (∀ p, p ≠ r.playerOf c → (r.softUpdate1 c t).cpuTimes.lookup p = r.cpuTimes.lookup p) ∧
      ({ r.softUpdate1 c t with cpuTimes := r.cpuTimes } : GameResult) = r) := by
  constructor
  · intro r b w c
    unfold GameResult.setPlayers
    simp only
    by_cases h : b = w
    · subst h
      cases c <;> simp [GameResult.playerOf, List.lookup]
    · cases c with
      | b => simp [GameResult.playerOf, List.lookup, h]
      | w =>
        have : (w == b) = false := by simpa using fun h' : w = b => h h'.symm
        simp [GameResult.playerOf, List.lookup, h, this]
  · intro r hr c t
    rw [softUpdate1_eq fmt hr]
    refine ⟨?_, ?_, ?_⟩
    · intro v hv
      split
      · rename_i h
        rw [h] at hv
        cases hv
        simp only [if_true]
        rw [lookup_assocSet, if_pos rfl, h]
        rfl
      · rename_i h
        rw [hv, if_neg]
        rintro rfl
        exact h hv
    · intro p hp
      split
      · rw [lookup_assocSet, if_neg hp]
      · rfl
    · split <;> rfl

/-- C30: the description names the winner and the loser, or the two players, followed by "jigo" or the SGF result, and the detail in
brackets if there is one. -/
theorem C30_describe (fmt : Rat → Str) {r : GameResult} (h : MadeResult fmt r) :
    r.describe =
      (match r.res.winningColour with
        | some c => r.playerOf c ++ " beat ".toList ++ r.playerOf c.opponent
        | none => r.playerB ++ " vs ".toList ++ r.playerW) ++ " ".toList ++
      (if r.res.sgfResult = "0".toList then "jigo".toList else r.res.sgfResult) ++
      (match r.res.detail with
        | some d => " (".toList ++ d ++ ")".toList
        | none => []) := by
  obtain ⟨h1, h2, h3, _⟩ := h.inv
  have hs : (" " : String).toList = [' '] := rfl
  have h0 : ("0" : String).toList = ['0'] := rfl
  unfold GameResult.describe GameResult.losingPlayer
  simp only [h1, h2, h3, hs, h0, decide_eq_true_eq]
  generalize " beat ".toList = beat
  generalize " vs ".toList = vs
  generalize (if r.res.sgfResult = ['0'] then "jigo".toList else r.res.sgfResult) = t
  rcases r.res.winningColour with _ | c
  · rcases r.res.detail with _ | d <;> simp
  · cases c <;> rcases r.res.detail with _ | d <;> simp [playerGet, GameResult.playerOf, Colour.opponent]

/-- C30: for a forfeited game the detail names the player who forfeited, and gives the reason. -/
theorem C30_forfeit_detail {n : Nat} {b0 : Board} {first : Colour} {limit : Option Int} {h : List Mv} {g : Game} {c : Colour} {x : Option Str}
    (hn : n ≤ 25) (hb : ReachableBoard n b0) (hp : Played n b0 first limit h (some (.forfeited c x)) g) (ho : g.isOver = true)
    (hnp : g.passedOut = false) (hf : g.seenForfeit = true) (b w : Str) :
    ∃ r, Res.fromUnscoredGame g = .ok r ∧
      (GameResult.setPlayers r b w).res.detail = some ("forfeit by ".toList ++ (match c with | .b => b | .w => w) ++ ": ".toList ++ x.getD "None".toList) ∧
      (GameResult.setPlayers r b w).losingPlayer = some (match c with | .b => b | .w => w) := by
  obtain ⟨r, h1, h2, _, h4, _, _, _, h5, _⟩ := C30_unscored hn hb hp ho hnp
  refine ⟨r, h1, ?_, ?_⟩
  · unfold GameResult.setPlayers
    have : r.isForfeit = true := h4.2 hf
    have h6 := (h5 c x rfl).2
    simp only [this, if_true, Res.losingColour, h2, Option.map_some, Ending.winner, h6]
    cases c <;> simp [playerGet, Colour.opponent]
  · unfold GameResult.losingPlayer
    simp only [GameResult.setPlayers, h2, Option.map_some, Ending.winner]
    cases c <;> simp [playerGet, Colour.opponent]

/-- C30: an actual result: a forfeit by White. -/
theorem C30_witness : ∃ r, Res.fromUnscoredGame
      (Game.recordForfeitBy (Game.init ⟨9, [], true⟩ .b none) .w (some "late".toList)).2 = .ok r ∧
    (GameResult.setPlayers r "one".toList "two".toList).describe = "one beat two B+F (forfeit by two: late)".toList :=
  ⟨_, rfl, rfl⟩

end Gomill
