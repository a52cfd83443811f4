import Verif.Model.Game
import Verif.Spec.Game
import Verif.Props.Board
import Verif.Props.Vertex
import Mathlib.Tactic.Linarith
/-
C26-C28: properties of gameplay.Game.
-/
namespace Gomill
open Py Go

/-- How a game can be ended other than by passes or the move limit. -/
inductive Ending where
  | resigned (loser : Colour)
  | claimed (winner : Colour)
  | forfeited (loser : Colour) (reason : Option Str)
  | illegal (loser : Colour) (p : Pt)

/-- Who wins. -/
def Ending.winner : Ending → Colour
  | .resigned c => c.opponent
  | .claimed c => c
  | .forfeited c _ => c.opponent
  | .illegal c _ => c.opponent

/-- Any sequence of calls to the record_... methods of a new Game (with board `b0` of size `n`).
The list has the moves which were recorded (the call returned, and didn't forfeit the game); the `Option Ending` says which
other call, if any, ended the game.  Plays are at points of the board. -/
inductive Played (n : Nat) (b0 : Board) (first : Colour) (limit : Option Int) : List Mv → Option Ending → Game → Prop
  | start : Played n b0 first limit [] none (Game.init b0 first limit)
  | move {h e g g'} (c : Colour) (m : Option Pt) : Played n b0 first limit h e g → (∀ p, m = some p → OnBoard n p) →
      g.recordMove c m = (.ok (), g') → g'.seenForfeit = false → Played n b0 first limit (h ++ [(c, m)]) e g'
  | illegal {h e g g'} (c : Colour) (p : Pt) : Played n b0 first limit h e g → OnBoard n p →
      g.recordMove c (some p) = (.ok (), g') → g'.seenForfeit = true →
      Played n b0 first limit h (some (.illegal c p)) g'
  | moveError {h e g g' x} (c : Colour) (m : Option Pt) : Played n b0 first limit h e g → (∀ p, m = some p → OnBoard n p) →
      g.recordMove c m = (.error x, g') → Played n b0 first limit h e g'
  | resign {h e g g'} (c : Colour) : Played n b0 first limit h e g → g.recordResignationBy c = (.ok (), g') →
      Played n b0 first limit h (some (.resigned c)) g'
  | resignError {h e g g' x} (c : Colour) : Played n b0 first limit h e g → g.recordResignationBy c = (.error x, g') →
      Played n b0 first limit h e g'
  | claim {h e g g'} (c : Colour) : Played n b0 first limit h e g → g.recordClaimBy c = (.ok (), g') →
      Played n b0 first limit h (some (.claimed c)) g'
  | claimError {h e g g' x} (c : Colour) : Played n b0 first limit h e g → g.recordClaimBy c = (.error x, g') →
      Played n b0 first limit h e g'
  | forfeit {h e g g'} (c : Colour) (r : Option Str) : Played n b0 first limit h e g →
      g.recordForfeitBy c r = (.ok (), g') → Played n b0 first limit h (some (.forfeited c r)) g'
  | forfeitError {h e g g' x} (c : Colour) (r : Option Str) : Played n b0 first limit h e g →
      g.recordForfeitBy c r = (.error x, g') → Played n b0 first limit h e g'

/-- The history ends with a pass. -/
def EndsWithPass (hist : List Mv) : Prop := ∃ l c, hist = l ++ [(c, none)]

theorem twoPasses_snoc {h : List Mv} {c : Colour} {m : Option Pt} :
    TwoPasses (h ++ [(c, m)]) ↔ m = none ∧ EndsWithPass h := by
  constructor
  · rintro ⟨l, a, d, heq⟩
    have : h ++ [(c, m)] = (l ++ [(a, none)]) ++ [(d, none)] := by simpa using heq
    have h2 := List.append_inj' this rfl
    exact ⟨by simpa using (congrArg Prod.snd (List.singleton_inj.1 h2.2)), l, a, h2.1⟩
  · rintro ⟨rfl, l, a, rfl⟩
    exact ⟨l, a, c, by simp⟩

theorem endsWithPass_snoc {h : List Mv} {c : Colour} {m : Option Pt} : EndsWithPass (h ++ [(c, m)]) ↔ m = none := by
  constructor
  · rintro ⟨l, a, heq⟩
    have h2 := List.append_inj' heq rfl
    simpa using (congrArg Prod.snd (List.singleton_inj.1 h2.2))
  · rintro rfl; exact ⟨h, c, rfl⟩

theorem toPlay_succ (f : Colour) (k : Nat) : toPlay f (k + 1) = (toPlay f k).opponent := by
  unfold toPlay
  rcases Nat.mod_two_eq_zero_or_one k with h | h
  · rw [if_pos h, if_neg (by omega)]
  · rw [if_pos (show (k + 1) % 2 = 0 by omega), if_neg (show ¬ k % 2 = 0 by omega)]; cases f <;> rfl

theorem alternates_snoc {f : Colour} {h : List Mv} {m : Option Pt} (ha : Alternates f h) :
    Alternates f (h ++ [(toPlay f h.length, m)]) := by
  intro k x hk
  by_cases hlt : k < h.length
  · rw [List.getElem?_append_left hlt] at hk; exact ha k x hk
  · rw [List.getElem?_append_right (by omega)] at hk
    have : k - h.length = 0 := by
      apply Classical.byContradiction; intro hne
      rw [List.getElem?_eq_none (by simp; omega)] at hk; cases hk
    rw [this] at hk
    simp at hk
    subst hk
    have : k = h.length := by omega
    rw [this]

theorem koAfter_snoc_pass {n : Nat} {pos0 : Position} {h : List Mv} {c : Colour} {p : Pt} :
    ¬ KoAfter n pos0 (h ++ [(c, none)]) p := by
  rintro ⟨l, a, q, heq, _⟩
  have h2 := List.append_inj' heq rfl
  simpa using h2.2

theorem koAfter_snoc {n : Nat} {pos0 : Position} {h : List Mv} {c : Colour} {q p : Pt} :
    KoAfter n pos0 (h ++ [(c, some q)]) p ↔
      KoPoint n (replay n pos0 h) (replay n pos0 (h ++ [(c, some q)])) q c p := by
  constructor
  · rintro ⟨l, a, q', heq, hk⟩
    have h2 := List.append_inj' heq rfl
    have h3 := List.singleton_inj.1 h2.2
    simp only [Prod.mk.injEq, Option.some.injEq] at h3
    obtain ⟨rfl, rfl⟩ := h3
    rw [h2.1]
    rw [h2.1] at hk
    exact hk
  · intro hk; exact ⟨h, c, q, rfl, hk⟩

theorem replay_snoc (n : Nat) (pos0 : Position) (h : List Mv) (m : Mv) :
    replay n pos0 (h ++ [m]) = playMv n (replay n pos0 h) m := by simp [replay]

/-- Everything about a Game, in terms of the recorded moves and the ending. -/
structure GInv (n : Nat) (pos0 : Position) (first : Colour) (limit : Option Int) (h : List Mv) (e : Option Ending)
    (g : Game) : Prop where
  board : BoardInv n g.board
  pos : g.board.pos = replay n pos0 h
  count : g.moveCount = h.length
  lim : g.moveLimit = limit
  alt : Alternates first h
  over : g.isOver = true ↔ e ≠ none ∨ TwoPasses h ∨ LimitReached limit h
  excl : e ≠ none → ¬ TwoPasses h ∧ ¬ LimitReached limit h
  calls : g.overCalls = if g.isOver then 1 else 0
  passedOut : g.passedOut = true ↔ TwoPasses h
  hitLimit : g.hitMoveLimit = true ↔ LimitReached limit h ∧ ¬ TwoPasses h
  resigned : g.seenResignation = true ↔ ∃ c, e = some (.resigned c)
  claimed : g.seenClaim = true ↔ ∃ c, e = some (.claimed c)
  forfeited : g.seenForfeit = true ↔ (∃ c r, e = some (.forfeited c r)) ∨ ∃ c p, e = some (.illegal c p)
  winner : g.winner = e.map Ending.winner
  next : g.nextPlayer = if g.isOver then none else some (toPlay first h.length)
  ko : ∀ p, g.simpleKoPoint = some p ↔ g.isOver = false ∧ KoAfter n pos0 h p
  koOn : ∀ p, g.simpleKoPoint = some p → OnBoard n p
  pass1 : g.isOver = false → (g.passCount = 1 ↔ EndsWithPass h) ∧ g.passCount ≤ 1
  early : ∀ l m, h = l ++ m → m ≠ [] → ¬ TwoPasses l ∧ ¬ LimitReached limit l
  reason : ∀ c r, e = some (.forfeited c r) → g.forfeitReason = r
  illegalReason : ∀ c p, e = some (.illegal c p) → IllegalAt n pos0 h p ∧ OnBoard n p ∧ c = toPlay first h.length

theorem not_twoPasses_nil : ¬ TwoPasses [] := by rintro ⟨l, c, d, h⟩; simp at h

theorem not_limit_nil {limit : Option Int} : ¬ LimitReached limit [] := by rintro ⟨_, _, _, h⟩; exact h rfl

theorem not_endsWithPass_nil : ¬ EndsWithPass [] := by rintro ⟨l, c, h⟩; simp at h

theorem not_koAfter_nil {n : Nat} {pos0 : Position} {p : Pt} : ¬ KoAfter n pos0 [] p := by
  rintro ⟨l, c, q, h, _⟩; simp at h

theorem ginv_start {n : Nat} {b0 : Board} (hb : BoardInv n b0) (first : Colour) (limit : Option Int) :
    GInv n b0.pos first limit [] none (Game.init b0 first limit) := by
  constructor <;> simp [Game.init, replay, not_twoPasses_nil, not_limit_nil, not_endsWithPass_nil, not_koAfter_nil, toPlay, Alternates]
  exact hb

variable {n : Nat} {pos0 : Position} {first : Colour} {limit : Option Int} {h : List Mv} {e : Option Ending} {g g' : Game}

theorem GInv.live (hi : GInv n pos0 first limit h e g) (ho : g.isOver = false) :
    e = none ∧ ¬ TwoPasses h ∧ ¬ LimitReached limit h := by
  have := hi.over.not.1 (by simp [ho])
  simp only [not_or, Classical.not_not] at this
  exact this

theorem ginv_resign (hi : GInv n pos0 first limit h e g) (c : Colour)
    (hr : g.recordResignationBy c = (.ok (), g')) : GInv n pos0 first limit h (some (.resigned c)) g' := by
  unfold Game.recordResignationBy at hr
  cases ho : g.isOver with
  | true => simp [ho] at hr
  | false =>
    obtain ⟨rfl, h1, h2⟩ := hi.live ho
    simp [ho] at hr
    subst hr
    have hc := hi.claimed; have hf := hi.forfeited; have hp := hi.passedOut; have hl := hi.hitLimit
    have hca := hi.calls
    simp at hc hf
    simp only [ho] at hca
    constructor <;> simp_all [Game.setOver, hi.board, hi.pos, hi.count, hi.lim, hi.alt, Ending.winner] <;>
      exact fun l m a b => hi.early l m a b

theorem ginv_claim (hi : GInv n pos0 first limit h e g) (c : Colour)
    (hr : g.recordClaimBy c = (.ok (), g')) : GInv n pos0 first limit h (some (.claimed c)) g' := by
  unfold Game.recordClaimBy at hr
  cases ho : g.isOver with
  | true => simp [ho] at hr
  | false =>
    obtain ⟨rfl, h1, h2⟩ := hi.live ho
    simp [ho] at hr
    subst hr
    have hc := hi.resigned; have hf := hi.forfeited; have hp := hi.passedOut; have hl := hi.hitLimit
    have hca := hi.calls
    simp at hc hf
    simp only [ho] at hca
    constructor <;> simp_all [Game.setOver, hi.board, hi.pos, hi.count, hi.lim, hi.alt, Ending.winner] <;>
      exact fun l m a b => hi.early l m a b

theorem ginv_forfeit (hi : GInv n pos0 first limit h e g) (c : Colour) (r : Option Str)
    (hr : g.recordForfeitBy c r = (.ok (), g')) : GInv n pos0 first limit h (some (.forfeited c r)) g' := by
  unfold Game.recordForfeitBy at hr
  cases ho : g.isOver with
  | true => simp [ho] at hr
  | false =>
    obtain ⟨rfl, h1, h2⟩ := hi.live ho
    simp [ho] at hr
    subst hr
    have hc := hi.resigned; have hf := hi.claimed; have hp := hi.passedOut; have hl := hi.hitLimit
    have hca := hi.calls
    simp at hc hf
    simp only [ho] at hca
    constructor <;> simp_all [Game.setOver, hi.board, hi.pos, hi.count, hi.lim, hi.alt, Ending.winner] <;>
      exact fun l m a b => hi.early l m a b

theorem ginv_illegal (hi : GInv n pos0 first limit h e g) (ho : g.isOver = false) (c : Colour) (p : Pt) (r : Option Str)
    (hc : c = toPlay first h.length) (hp : OnBoard n p) (hill : IllegalAt n pos0 h p) :
    GInv n pos0 first limit h (some (.illegal c p))
      (Game.setOver { g with passCount := 0, winner := some c.opponent, seenForfeit := true, forfeitReason := r }) := by
  obtain ⟨rfl, h1, h2⟩ := hi.live ho
  have hc := hi.resigned; have hf := hi.claimed; have hp := hi.passedOut; have hl := hi.hitLimit
  have hca := hi.calls
  simp at hc hf
  simp only [ho] at hca
  constructor <;> simp_all [Game.setOver, hi.board, hi.pos, hi.count, hi.lim, hi.alt, Ending.winner] <;>
    exact fun l m a b => hi.early l m a b

theorem limit_snoc {m : Mv} : LimitReached limit (h ++ [m]) ↔ ∃ lim, limit = some lim ∧ lim ≤ (h.length : Int) + 1 := by
  unfold LimitReached
  simp

theorem split_snoc {α} {h l m : List α} {x : α} (heq : h ++ [x] = l ++ m) (hm : m ≠ []) :
    l = h ∨ ∃ m', m' ≠ [] ∧ h = l ++ m' := by
  rcases List.eq_nil_or_concat m with rfl | ⟨m', y, rfl⟩
  · exact absurd rfl hm
  · rw [List.concat_eq_append, ← List.append_assoc] at heq
    have h2 := (List.append_inj' heq rfl).1
    by_cases hm' : m' = []
    · left; simpa [hm'] using h2.symm
    · exact Or.inr ⟨m', hm', h2⟩

theorem ginv_finish (hi : GInv n pos0 first limit h e g) (ho : g.isOver = false) (m : Option Pt)
    (b' : Board) (ko : Option Pt) (pc : Nat) (hb : BoardInv n b')
    (hpos : b'.pos = replay n pos0 (h ++ [(toPlay first h.length, m)]))
    (hko : ∀ p, ko = some p ↔ KoAfter n pos0 (h ++ [(toPlay first h.length, m)]) p)
    (hkoOn : ∀ p, ko = some p → OnBoard n p) (hpc0 : m ≠ none → pc = 0) (hpc1 : m = none → pc = g.passCount + 1) :
    GInv n pos0 first limit (h ++ [(toPlay first h.length, m)]) e
      (Game.finishMove { g with board := b', simpleKoPoint := ko, passCount := pc } (toPlay first h.length)) := by
  obtain ⟨rfl, h1, h2⟩ := hi.live ho
  have hr := hi.resigned; have hcl := hi.claimed; have hf := hi.forfeited; have hp := hi.passedOut; have hl := hi.hitLimit
  have hca := hi.calls; have hw := hi.winner
  have hpass := hi.pass1 ho
  simp at hr hcl hf hw
  simp only [ho] at hca
  have hp0 : g.passedOut = false := by rw [Bool.eq_false_iff]; intro x; exact h1 (hp.1 x)
  have hl0 : g.hitMoveLimit = false := by rw [Bool.eq_false_iff]; intro x; exact h2 (hl.1 x).1
  have halt := alternates_snoc (m := m) hi.alt
  have hlim := hi.lim
  have hcount := hi.count
  have hearly : ∀ l m', h ++ [(toPlay first h.length, m)] = l ++ m' → m' ≠ [] → ¬ TwoPasses l ∧ ¬ LimitReached limit l := by
    intro l m' heq hm'
    rcases split_snoc heq hm' with rfl | ⟨m2, hm2, heq2⟩
    · exact ⟨h1, h2⟩
    · exact hi.early l m2 heq2 hm2
  have htp : TwoPasses (h ++ [(toPlay first h.length, m)]) ↔ pc = 2 := by
    rw [twoPasses_snoc]
    constructor
    · rintro ⟨rfl, hep⟩
      rw [hpc1 rfl, hpass.1.2 hep]
    · intro hpc
      have hm : m = none := by
        apply Classical.byContradiction; intro hm; rw [hpc0 hm] at hpc; omega
      exact ⟨hm, hpass.1.1 (by rw [hpc1 hm] at hpc; omega)⟩
  have hls := limit_snoc (limit := limit) (h := h) (m := (toPlay first h.length, m))
  have hep : EndsWithPass (h ++ [(toPlay first h.length, m)]) ↔ m = none := endsWithPass_snoc
  have hnext : toPlay first (h.length + 1) = (toPlay first h.length).opponent := toPlay_succ _ _
  have hpcle : pc ≤ 2 := by
    by_cases hm : m = none
    · rw [hpc1 hm]; have := hpass.2; omega
    · rw [hpc0 hm]; omega
  have hpcm : pc ≠ 2 → (pc = 1 ↔ m = none) ∧ pc ≤ 1 := by
    intro hne
    refine ⟨⟨fun hpc => ?_, fun hm => ?_⟩, by omega⟩
    · apply Classical.byContradiction; intro hm; rw [hpc0 hm] at hpc; omega
    · rw [hpc1 hm] at hne ⊢; have := hpass.2; omega
  generalize hh' : h ++ [(toPlay first h.length, m)] = h' at *
  have hlen : h'.length = h.length + 1 := by rw [← hh']; simp
  unfold Game.finishMove
  by_cases hpc : pc = 2
  · simp only [hpc, if_true]
    have htp' := htp.2 hpc
    constructor <;> simp_all [Game.setOver]
  · have htp' : ¬ TwoPasses h' := fun x => hpc (htp.1 x)
    have hpcm' := hpcm hpc
    simp only [hpc, if_false]
    cases hlimit : limit with
    | none =>
      rw [hlimit] at hlim hls hearly
      have hls' : ¬ LimitReached none h' := by rw [hls]; simp
      simp only [hlim]
      constructor <;> simp_all
    | some lim =>
      rw [hlimit] at hlim hls hearly
      simp only [hlim]
      by_cases hge : ((g.moveCount + 1 : Nat) : Int) ≥ lim
      · have hls' : LimitReached (some lim) h' := hls.2 ⟨lim, rfl, by rw [hcount] at hge; omega⟩
        rw [if_pos hge]
        constructor <;> simp_all [Game.setOver]
      · have hls' : ¬ LimitReached (some lim) h' := by
          rw [hls]; rintro ⟨l, h3, h4⟩; cases h3; rw [hcount] at hge; omega
        rw [if_neg hge]
        constructor <;> simp_all

/-- What `record_move` does, in every case. -/
theorem recordMove_cases (hn : n ≤ 25) (hi : GInv n pos0 first limit h e g) (c : Colour) (m : Option Pt)
    (hm : ∀ p, m = some p → OnBoard n p) :
    (g.isOver = true ∨ c ≠ toPlay first h.length → g.recordMove c m = (.error .gameStateError, g)) ∧
    (g.isOver = false → c = toPlay first h.length → (∀ p, m = some p → ¬ IllegalAt n pos0 h p) →
      ∃ g', g.recordMove c m = (.ok (), g') ∧ g'.seenForfeit = false ∧ GInv n pos0 first limit (h ++ [(c, m)]) e g') ∧
    (g.isOver = false → c = toPlay first h.length → ∀ p, m = some p → IllegalAt n pos0 h p →
      ∃ g', g.recordMove c m = (.ok (), g') ∧ g'.seenForfeit = true ∧ g'.board = g.board ∧
        GInv n pos0 first limit h (some (.illegal c p)) g' ∧
        ∃ v, formatVertex (some p) = .ok v ∧ g'.forfeitReason = some ((if replay n pos0 h p ≠ none then
          "attempted move to occupied point ".toList else "attempted move to ko-forbidden point ".toList) ++ v)) := by
  have hnext := hi.next
  have hforf : g.isOver = false → g.seenForfeit = false := by
    intro ho
    obtain ⟨rfl, _⟩ := hi.live ho
    have := hi.forfeited
    simpa using this
  have hside := hi.board.side
  have hl := hi.board.legal
  refine ⟨?_, ?_, ?_⟩
  · intro hor
    unfold Game.recordMove
    by_cases ho : g.isOver = true
    · rw [if_pos ho]
    · rw [if_neg ho, if_pos]
      rw [hnext, if_neg ho]
      rcases hor with hor | hor
      · exact absurd hor ho
      · simpa using fun x => hor x.symm
  · intro ho hc hleg
    subst hc
    unfold Game.recordMove
    have ho' : ¬ g.isOver = true := by simp [ho]
    rw [if_neg ho', if_neg (by rw [hnext, if_neg ho']; simp)]
    have hsf : ∀ b k pc, (Game.finishMove { g with board := b, simpleKoPoint := k, passCount := pc } (toPlay first h.length)).seenForfeit = false := by
      intro b k pc
      unfold Game.finishMove
      simp only
      split
      · exact hforf ho
      · split
        · exact hforf ho
        · split
          · exact hforf ho
          · exact hforf ho
    cases m with
    | none =>
      refine ⟨_, rfl, hsf _ _ _, ?_⟩
      refine ginv_finish hi ho none g.board none (g.passCount + 1) hi.board ?_ ?_ (by simp) (by simp) (by simp)
      · rw [replay_snoc]; exact hi.pos
      · intro p; simp [koAfter_snoc_pass]
    | some p =>
      have hp := hm p rfl
      have hnill := hleg p rfl
      have hnk : ¬ (some p = g.simpleKoPoint) := by
        intro hk
        exact hnill (Or.inr ((hi.ko p).1 hk.symm).2)
      have hemp : g.board.pos p = none := by
        rw [hi.pos]; apply Classical.byContradiction; intro hne; exact hnill (Or.inl hne)
      rw [← hside] at hl hp
      obtain ⟨ko, b', h1, h2, h3, h4, h5, h6⟩ := playWith_spec hi.board.wf defaultPops (toPlay first h.length) hl hp hemp
      have hb' : BoardInv n b' := boardInv_play hi.board h1
      simp only [hnk, if_false, Board.play, h1]
      refine ⟨_, rfl, hsf _ _ _, ?_⟩
      refine ginv_finish hi ho (some p) b' ko 0 hb' ?_ ?_ ?_ (by simp) (by simp)
      · rw [replay_snoc, playMv, ← hi.pos, ← hside]; exact h4
      · intro q
        rw [h6 q, koAfter_snoc, replay_snoc, playMv, ← hi.pos, ← hside, h4]
      · intro q hq
        have hkq := (((h6 q).1 hq).1 q).2 rfl
        apply Classical.byContradiction
        intro hoff
        rw [← hside] at hoff
        rw [pos_off hi.board.wf hoff] at hkq
        simp at hkq
  · intro ho hc p hmp hill
    subst hc hmp
    have hp := hm p rfl
    obtain ⟨v, hv⟩ : ∃ v, formatVertex (some p) = .ok v := by
      obtain ⟨v, hv, _⟩ := C13_vertex_round_trip n hn p hp
      exact ⟨v, hv⟩
    unfold Game.recordMove
    have ho' : ¬ g.isOver = true := by simp [ho]
    rw [if_neg ho', if_neg (by rw [hnext, if_neg ho']; simp)]
    have hg := ginv_illegal hi ho (toPlay first h.length) p
    by_cases hk : some p = g.simpleKoPoint
    · have hka := ((hi.ko p).1 hk.symm).2
      have hocc : replay n pos0 h p = none := by
        obtain ⟨l, c, q, hlq, hkp⟩ := hka
        exact ((hkp.1 p).2 rfl).2
      simp only [eq_true hk, if_true, Game.forfeitIllegal, hv, Game.recordForfeitBy, ho]
      refine ⟨_, rfl, rfl, rfl, hg _ rfl hp hill, v, rfl, ?_⟩
      simp [Game.setOver, hocc]
    · have hocc : replay n pos0 h p ≠ none := by
        rcases hill with hx | hx
        · exact hx
        · exact absurd ((hi.ko p).2 ⟨ho, hx⟩).symm hk
      have hplay : g.board.play p.1 p.2 (toPlay first h.length) = .error .valueError := by
        apply playWith_occupied hi.board.wf
        · rw [hside]; exact hp
        · rw [hi.pos]; exact hocc
      simp only [hk, if_false, Game.forfeitIllegal, hv, Game.recordForfeitBy, ho, hplay]
      refine ⟨_, rfl, rfl, rfl, hg _ rfl hp hill, v, rfl, ?_⟩
      simp [Game.setOver, hocc]

/-- The invariant holds after any sequence of calls. -/
theorem Played.inv {b0 : Board} (hn : n ≤ 25) (hb : BoardInv n b0) (hp : Played n b0 first limit h e g) :
    GInv n b0.pos first limit h e g := by
  induction hp with
  | start => exact ginv_start hb first limit
  | @move h e g g' c m hp hm hr hs ih =>
    obtain ⟨h1, h2, h3⟩ := recordMove_cases hn ih c m hm
    by_cases hc : g.isOver = true ∨ c ≠ toPlay first h.length
    · rw [h1 hc] at hr; simp at hr
    · simp only [not_or, Bool.not_eq_true, Classical.not_not] at hc
      by_cases hill : ∃ p, m = some p ∧ IllegalAt n b0.pos h p
      · obtain ⟨p, hmp, hill⟩ := hill
        obtain ⟨g2, h4, h5, _⟩ := h3 hc.1 hc.2 p hmp hill
        rw [h4] at hr; cases hr; rw [h5] at hs; cases hs
      · obtain ⟨g2, h4, _, h5⟩ := h2 hc.1 hc.2 (fun p hmp hx => hill ⟨p, hmp, hx⟩)
        rw [h4] at hr; cases hr; exact h5
  | @illegal h e g g' c p hp hm hr hs ih =>
    obtain ⟨h1, h2, h3⟩ := recordMove_cases hn ih c (some p) (by rintro q ⟨⟩; exact hm)
    by_cases hc : g.isOver = true ∨ c ≠ toPlay first h.length
    · rw [h1 hc] at hr; simp at hr
    · simp only [not_or, Bool.not_eq_true, Classical.not_not] at hc
      by_cases hill : IllegalAt n b0.pos h p
      · obtain ⟨g2, h4, h5, _, h6, _⟩ := h3 hc.1 hc.2 p rfl hill
        rw [h4] at hr; cases hr; exact h6
      · obtain ⟨g2, h4, h6, h5⟩ := h2 hc.1 hc.2 (by rintro q ⟨⟩; exact hill)
        rw [h4] at hr; cases hr; rw [h6] at hs; cases hs
  | @moveError h e g g' x c m hp hm hr ih =>
    obtain ⟨h1, h2, h3⟩ := recordMove_cases hn ih c m hm
    by_cases hc : g.isOver = true ∨ c ≠ toPlay first h.length
    · rw [h1 hc] at hr; simp at hr; rw [← hr.2]; exact ih
    · simp only [not_or, Bool.not_eq_true, Classical.not_not] at hc
      by_cases hill : ∃ p, m = some p ∧ IllegalAt n b0.pos h p
      · obtain ⟨p, hmp, hill⟩ := hill
        obtain ⟨g2, h4, h5, _⟩ := h3 hc.1 hc.2 p hmp hill
        rw [h4] at hr; simp at hr
      · obtain ⟨g2, h4, _, h5⟩ := h2 hc.1 hc.2 (fun p hmp hx => hill ⟨p, hmp, hx⟩)
        rw [h4] at hr; simp at hr
  | resign c hp hr ih => exact ginv_resign ih c hr
  | @resignError h e g g' x c hp hr ih =>
    unfold Game.recordResignationBy at hr
    split at hr <;> simp at hr
    rw [← hr.2]; exact ih
  | claim c hp hr ih => exact ginv_claim ih c hr
  | @claimError h e g g' x c hp hr ih =>
    unfold Game.recordClaimBy at hr
    split at hr <;> simp at hr
    rw [← hr.2]; exact ih
  | forfeit c r hp hr ih => exact ginv_forfeit ih c r hr
  | @forfeitError h e g g' x c r hp hr ih =>
    unfold Game.recordForfeitBy at hr
    split at hr <;> simp at hr
    rw [← hr.2]; exact ih

/-! ## C26 -/

/-- C26: after any calls, exactly one of the five endings is flagged if the game is over and none if it isn't; it is over
exactly when something ended it; the game-over callback has been called once if so, and not before. -/
theorem C26_ending {b0 : Board} (hn : n ≤ 25) (hb : ReachableBoard n b0) (hp : Played n b0 first limit h e g) :
    (g.isOver = true ↔ e ≠ none ∨ TwoPasses h ∨ LimitReached limit h) ∧
    [g.passedOut, g.seenResignation, g.seenClaim, g.seenForfeit, g.hitMoveLimit].count true = (if g.isOver then 1 else 0) ∧
    g.overCalls = (if g.isOver then 1 else 0) := by
  have hi := hp.inv hn hb.inv
  refine ⟨hi.over, ?_, hi.calls⟩
  have h1 := hi.over; have h2 := hi.excl; have h3 := hi.passedOut; have h4 := hi.hitLimit
  have h5 := hi.resigned; have h6 := hi.claimed; have h7 := hi.forfeited
  cases e with
  | none =>
    simp at h5 h6 h7
    rw [h5, h6, h7]
    simp only [ne_eq, not_true_eq_false, false_or] at h1
    by_cases ht : TwoPasses h
    · have a := h3.2 ht
      have b : g.hitMoveLimit = false := by rw [Bool.eq_false_iff]; exact fun x => (h4.1 x).2 ht
      have c := h1.2 (Or.inl ht)
      simp [a, b, c]
    · have a : g.passedOut = false := by rw [Bool.eq_false_iff]; exact fun x => ht (h3.1 x)
      by_cases hl : LimitReached limit h
      · have b := h4.2 ⟨hl, ht⟩
        have c := h1.2 (Or.inr hl)
        simp [a, b, c]
      · have b : g.hitMoveLimit = false := by rw [Bool.eq_false_iff]; exact fun x => hl (h4.1 x).1
        have c : g.isOver = false := by rw [Bool.eq_false_iff]; exact fun x => (h1.1 x).elim ht hl
        simp [a, b, c]
  | some x =>
    obtain ⟨ht, hl⟩ := h2 (by simp)
    have a : g.passedOut = false := by rw [Bool.eq_false_iff]; exact fun x => ht (h3.1 x)
    have b : g.hitMoveLimit = false := by rw [Bool.eq_false_iff]; exact fun x => hl (h4.1 x).1
    have c : g.isOver = true := h1.2 (Or.inl (by simp))
    cases x <;> simp at h5 h6 h7 <;> simp [a, b, c, h5, h6, h7]

/-- C26: the flag which is set, and the winner, are the right ones. -/
theorem C26_winner {b0 : Board} (hn : n ≤ 25) (hb : ReachableBoard n b0) (hp : Played n b0 first limit h e g) :
    (g.seenResignation = true ↔ ∃ c, e = some (.resigned c)) ∧
    (g.seenClaim = true ↔ ∃ c, e = some (.claimed c)) ∧
    (g.seenForfeit = true ↔ (∃ c r, e = some (.forfeited c r)) ∨ ∃ c p, e = some (.illegal c p)) ∧
    g.winner = e.map Ending.winner ∧
    (g.winner ≠ none ↔ g.seenResignation = true ∨ g.seenClaim = true ∨ g.seenForfeit = true) ∧
    (∀ c r, e = some (.forfeited c r) → g.forfeitReason = r) := by
  have hi := hp.inv hn hb.inv
  refine ⟨hi.resigned, hi.claimed, hi.forfeited, hi.winner, ?_, hi.reason⟩
  rw [hi.winner, hi.resigned, hi.claimed, hi.forfeited]
  cases e with
  | none => simp
  | some x => cases x <;> simp

/-- C26: once the game is over, nothing changes it. -/
theorem C26_final (g : Game) (ho : g.isOver = true) (c : Colour) (m : Option Pt) (r : Option Str) :
    g.recordMove c m = (.error .gameStateError, g) ∧ g.recordResignationBy c = (.error .gameStateError, g) ∧
    g.recordClaimBy c = (.error .gameStateError, g) ∧ g.recordForfeitBy c r = (.error .gameStateError, g) := by
  simp [Game.recordMove, Game.recordResignationBy, Game.recordClaimBy, Game.recordForfeitBy, ho]

/-- C26: before that, a resignation, claim or forfeit is always accepted, from either player. -/
theorem C26_accepts {b0 : Board} (hp : Played n b0 first limit h e g) (ho : g.isOver = false) (c : Colour) (r : Option Str) :
    (∃ g', g.recordResignationBy c = (.ok (), g') ∧ Played n b0 first limit h (some (.resigned c)) g') ∧
    (∃ g', g.recordClaimBy c = (.ok (), g') ∧ Played n b0 first limit h (some (.claimed c)) g') ∧
    (∃ g', g.recordForfeitBy c r = (.ok (), g') ∧ Played n b0 first limit h (some (.forfeited c r)) g') := by
  obtain ⟨g1, h1⟩ : ∃ g', g.recordResignationBy c = (.ok (), g') := by simp [Game.recordResignationBy, ho]
  obtain ⟨g2, h2⟩ : ∃ g', g.recordClaimBy c = (.ok (), g') := by simp [Game.recordClaimBy, ho]
  obtain ⟨g3, h3⟩ : ∃ g', g.recordForfeitBy c r = (.ok (), g') := by simp [Game.recordForfeitBy, ho]
  exact ⟨⟨_, h1, .resign c hp h1⟩, ⟨_, h2, .claim c hp h2⟩, ⟨_, h3, .forfeit c r hp h3⟩⟩

/-! ## C27 -/

/-- C27: passes, the move limit, the move count and the turn. -/
theorem C27_passes_and_limit {b0 : Board} (hn : n ≤ 25) (hb : ReachableBoard n b0) (hp : Played n b0 first limit h e g) :
    (g.passedOut = true ↔ TwoPasses h) ∧
    (g.hitMoveLimit = true ↔ LimitReached limit h ∧ ¬ TwoPasses h) ∧
    g.moveCount = h.length ∧
    Alternates first h ∧
    g.nextPlayer = (if g.isOver then none else some (toPlay first h.length)) ∧
    (∀ l m, h = l ++ m → m ≠ [] → ¬ TwoPasses l ∧ ¬ LimitReached limit l) := by
  have hi := hp.inv hn hb.inv
  exact ⟨hi.passedOut, hi.hitLimit, hi.count, hi.alt, hi.next, hi.early⟩

/-- C27: in particular the number of recorded moves never exceeds a positive limit. -/
theorem C27_limit_bound {b0 : Board} {lim : Nat} (hn : n ≤ 25) (hb : ReachableBoard n b0) (hpos : 0 < lim)
    (hp : Played n b0 first (some lim) h e g) : h.length ≤ lim := by
  rcases List.eq_nil_or_concat h with rfl | ⟨l, x, rfl⟩
  · simp
  · have := ((C27_passes_and_limit hn hb hp).2.2.2.2.2 l [x] (by simp) (by simp)).2
    simp only [List.concat_eq_append, List.length_append, List.length_singleton]
    apply Classical.byContradiction
    intro hgt
    apply this
    exact ⟨lim, rfl, by omega, by rintro rfl; simp at hgt; omega⟩

/-- C27: a call by the player whose turn it isn't is refused. -/
theorem C27_turn {b0 : Board} (hn : n ≤ 25) (hb : ReachableBoard n b0) (hp : Played n b0 first limit h e g)
    (c : Colour) (m : Option Pt) (hm : ∀ p, m = some p → OnBoard n p) (hc : c ≠ toPlay first h.length) :
    g.recordMove c m = (.error .gameStateError, g) :=
  (recordMove_cases hn (hp.inv hn hb.inv) c m hm).1 (Or.inr hc)

/-- C27, the condition that plays are on the board is needed: `record_move` with a point off the board raises IndexError
but has already forgotten the preceding pass. -/
theorem C27_off_board_forgets_pass : ∃ b g1 g2 g3, Board.init 5 = .ok b ∧
    (Game.init b .b none).recordMove .b none = (.ok (), g1) ∧
    g1.recordMove .w (some (9, 9)) = (.error (.py .indexError), g2) ∧
    g2.recordMove .w none = (.ok (), g3) ∧ g3.isOver = false ∧ g3.moveCount = 2 :=
  ⟨_, _, _, _, rfl, rfl, rfl, rfl, rfl, rfl⟩

/-! ## C28 -/

/-- C28: when it is `c`'s turn, a play at a point of the board is recorded exactly if it is legal, and then the
position is the one the rules of go prescribe; an illegal one forfeits the game, and changes neither the board nor the
moves. -/
theorem C28_legality {b0 : Board} (hn : n ≤ 25) (hb : ReachableBoard n b0) (hp : Played n b0 first limit h e g)
    (ho : g.isOver = false) (p : Pt) (hon : OnBoard n p) :
    ∃ g', g.recordMove (toPlay first h.length) (some p) = (.ok (), g') ∧
      (g'.seenForfeit = true ↔ IllegalAt n b0.pos h p) ∧
      (IllegalAt n b0.pos h p → g'.board = g.board ∧ g'.winner = some (toPlay first h.length).opponent ∧
        ∃ v, formatVertex (some p) = .ok v ∧ g'.forfeitReason = some ((if replay n b0.pos h p ≠ none then
          "attempted move to occupied point ".toList else "attempted move to ko-forbidden point ".toList) ++ v)) ∧
      (¬ IllegalAt n b0.pos h p → g'.board.pos = rulesPlay n g.board.pos p (toPlay first h.length)) := by
  have hi := hp.inv hn hb.inv
  obtain ⟨_, h2, h3⟩ := recordMove_cases hn hi (toPlay first h.length) (some p) (by rintro q ⟨⟩; exact hon)
  by_cases hill : IllegalAt n b0.pos h p
  · obtain ⟨g', a, b, c, d, f⟩ := h3 ho rfl p rfl hill
    refine ⟨g', a, by simp [b, hill], fun _ => ⟨c, d.winner, f⟩, fun x => absurd hill x⟩
  · obtain ⟨g', a, b, c⟩ := h2 ho rfl (by rintro q ⟨⟩; exact hill)
    refine ⟨g', a, by simp [b, hill], fun x => absurd x hill, fun _ => ?_⟩
    rw [c.pos, replay_snoc, playMv, hi.pos]

/-- C28: passes are always legal. -/
theorem C28_pass {b0 : Board} (hn : n ≤ 25) (hb : ReachableBoard n b0) (hp : Played n b0 first limit h e g)
    (ho : g.isOver = false) :
    ∃ g', g.recordMove (toPlay first h.length) none = (.ok (), g') ∧ g'.seenForfeit = false ∧ g'.board.pos = g.board.pos := by
  have hi := hp.inv hn hb.inv
  obtain ⟨_, h2, _⟩ := recordMove_cases hn hi (toPlay first h.length) none (by simp)
  obtain ⟨g', a, b, c⟩ := h2 ho rfl (by simp)
  exact ⟨g', a, b, by rw [c.pos, replay_snoc, playMv, hi.pos]⟩

/-- C28: at all times the board shows the replay of the recorded moves, and the simple ko point is the one left by the
last of them. -/
theorem C28_replay {b0 : Board} (hn : n ≤ 25) (hb : ReachableBoard n b0) (hp : Played n b0 first limit h e g) :
    g.board.pos = replay n b0.pos h ∧ ∀ p, g.simpleKoPoint = some p ↔ g.isOver = false ∧ KoAfter n b0.pos h p :=
  ⟨(hp.inv hn hb.inv).pos, (hp.inv hn hb.inv).ko⟩

/-- The hypotheses are met by a real game: Black plays, White passes, Black passes; and by one ended by an illegal move. -/
theorem C26_witness : ∃ b0, ReachableBoard 3 b0 ∧
    (∃ g, Played 3 b0 .b (some 10) [(.b, some (1, 1)), (.w, none), (.b, none)] none g ∧ g.passedOut = true ∧ g.isOver = true) ∧
    (∃ g, Played 3 b0 .b none [(.b, some (1, 1))] (some (.illegal .w (1, 1))) g ∧ g.winner = some .b) := by
  have hr : ReachableBoard 3 ⟨3, List.replicate 3 (List.replicate 3 none), true⟩ := ⟨_, [], rfl, rfl⟩
  refine ⟨_, hr, ?_, ?_⟩
  · have h1 := Played.start (n := 3) (b0 := ⟨3, List.replicate 3 (List.replicate 3 none), true⟩) (first := .b) (limit := some 10)
    have h2 := Played.move .b (some (1, 1)) h1 (by rintro p ⟨⟩; unfold OnBoard; decide) rfl rfl
    have h3 := Played.move .w none h2 (by simp) rfl rfl
    have h4 := Played.move .b none h3 (by simp) rfl rfl
    exact ⟨_, h4, rfl, rfl⟩
  · have h1 := Played.start (n := 3) (b0 := ⟨3, List.replicate 3 (List.replicate 3 none), true⟩) (first := .b) (limit := none)
    have h2 := Played.move .b (some (1, 1)) h1 (by rintro p ⟨⟩; unfold OnBoard; decide) rfl rfl
    have h3 := Played.illegal .w (1, 1) h2 (by unfold OnBoard; decide) rfl rfl
    exact ⟨_, h3, rfl⟩

/-- Two groups in contact: Black can take at (1, 2) the stone at (1, 1). -/
def koBoard : Board := ⟨4, [[none, some .b, some .w, none], [some .b, some .w, none, some .w],
  [none, some .b, some .w, none], [none, none, none, none]], false⟩

/-- C28: a game with a ko: retaking at once forfeits; after a pass each, it doesn't. -/
theorem C28_witness : ReachableBoard 4 koBoard ∧
    (∃ g, Played 4 koBoard .b none [(.b, some (1, 2))] (some (.illegal .w (1, 1))) g ∧ g.winner = some .b ∧
      g.forfeitReason = some "attempted move to ko-forbidden point B2".toList) ∧
    (∃ g, Played 4 koBoard .b none [(.b, some (1, 2)), (.w, none), (.b, some (3, 3)), (.w, some (1, 1))] none g ∧
      g.isOver = false) := by
  refine ⟨⟨⟨4, List.replicate 4 (List.replicate 4 none), true⟩,
    [.setup defaultPops [(0, 1), (1, 0), (2, 1)] [(0, 2), (1, 1), (1, 3), (2, 2)] []], rfl, rfl⟩, ?_, ?_⟩
  · have h1 := Played.start (n := 4) (b0 := koBoard) (first := .b) (limit := none)
    have h2 := Played.move .b (some (1, 2)) h1 (by rintro p ⟨⟩; unfold OnBoard; decide) rfl rfl
    have h3 := Played.illegal .w (1, 1) h2 (by unfold OnBoard; decide) rfl rfl
    exact ⟨_, h3, rfl, rfl⟩
  · have h1 := Played.start (n := 4) (b0 := koBoard) (first := .b) (limit := none)
    have h2 := Played.move .b (some (1, 2)) h1 (by rintro p ⟨⟩; unfold OnBoard; decide) rfl rfl
    have h3 := Played.move .w none h2 (by simp) rfl rfl
    have h4 := Played.move .b (some (3, 3)) h3 (by rintro p ⟨⟩; unfold OnBoard; decide) rfl rfl
    have h5 := Played.move .w (some (1, 1)) h4 (by rintro p ⟨⟩; unfold OnBoard; decide) rfl rfl
    exact ⟨_, h5, rfl⟩

end Gomill
