import Verif.Model.GtpState
import Verif.Spec.GtpTold
import Verif.Spec.Game
import Verif.Model.SgfMoves
import Verif.Lemmas.BoardBasic
import Mathlib.Data.List.Forall2
/-
When a command to a Gtp_state succeeds, and when it breaks the engine: specification vocabulary for C94.
-/
namespace Gomill.Gtp.Spec
open Py Go

/-- A GTP vertex, on a board with `n` rows: `pass` in any case (None), or a column letter (in either case; there is no I) and a row number counted from 1. There
are no vertices for boards with more than 25 rows. -/
def IsVertex (n : Nat) (v : Str) : Option Pt → Prop
  | none => n ≤ 25 ∧ lower v = "pass".toList
  | some p => n ≤ 25 ∧ OnBoard n p ∧ ∃ (c l : Char) (r : Str), v = c :: r ∧ "ABCDEFGHJKLMNOPQRSTUVWXYZ".toList[p.2.toNat]? = some l ∧ c.toLower = l.toLower ∧
      parseInt (lower r) = .ok (p.1 + 1)

/-- The largest handicap for which there's a layout. -/
def layoutMax (n : Nat) : Int := if n < 8 ∨ 25 < n then 0 else if n % 2 = 0 then 4 else 9

/-- There are no stones on the board. -/
def Empty (pos : Position) : Prop := ∀ q, pos q = none

/-- The moves before move number `k`. -/
def movesBefore (k : Option Int) (plays : List Mv) : List Mv :=
  match k with
  | none => plays
  | some k => plays.take (k - 1).toNat

/-- loadsgf's second argument, if there's one. -/
def IsMoveNumber (rest : List Str) (k : Option Int) : Prop :=
  (rest = [] ∧ k = none) ∨ ∃ a r j, rest = a :: r ∧ IsGtpInt a j ∧ k = some j

/-- A move generator's answer is usable: `claim` says whether it may claim a win, `fr` whether this is only a regression test. -/
def UsableAnswer (n : Nat) (pos : Position) (claim fr : Bool) (g : GenResult) : Prop :=
  (claim = true ∧ g.claim = true) ∨ g.resign = true ∨ g.passMove = true ∨
    ∃ p, g.move = some p ∧ OnBoard 25 p ∧ (fr = true ∨ (OnBoard n p ∧ pos p = none))

/-- A move generator raised an exception, or its answer is nonsense. -/
def Nonsense (n : Nat) (claim fr : Bool) (g : Option GenResult) : Prop :=
  g = none ∨ ∃ r, g = some r ∧ ¬ (claim = true ∧ r.claim = true) ∧ r.resign = false ∧ r.passMove = false ∧
    (r.move = none ∨ ∃ p, r.move = some p ∧ (¬ OnBoard 25 p ∨ (fr = false ∧ ¬ OnBoard n p)))

/-- The command succeeds, for a state whose board has `n` rows. -/
inductive Succeeds (env : Env) (n : Nat) (s : GS) : Cmd → List Str → Prop
  | boardsize {a : Str} {r : List Str} {k : Int} (hk : IsGtpInt a k) (h : k ∈ s.acceptable) : Succeeds env n s .boardsize (a :: r)
  | clearBoard {args : List Str} : Succeeds env n s .clearBoard args
  | komi {a : Str} {r : List Str} {f : Rat} (h : env.readFloat a = some f) : Succeeds env n s .komi (a :: r)
  | fixedHandicap {a : Str} {r : List Str} {k : Int} (hk : IsGtpInt a k) (he : Empty s.board.pos) (h2 : 2 ≤ k) (hm : k ≤ layoutMax n) :
      Succeeds env n s .fixedHandicap (a :: r)
  | setFreeHandicap {args : List Str} {ps : List Pt} (hv : List.Forall₂ (fun v p => IsVertex n v (some p)) args ps) (hd : ps.Nodup) (h2 : 2 ≤ args.length)
      (hm : args.length < n * n) (he : Empty s.board.pos) : Succeeds env n s .setFreeHandicap args
  | placeFreeHandicap {a : Str} {r : List Str} {k : Int} (hk : IsGtpInt a k) (h2 : 2 ≤ k) (hm : k < n * n) (he : Empty s.board.pos) (h8 : 8 ≤ n)
      (h25 : n ≤ 25) : Succeeds env n s .placeFreeHandicap (a :: r)
  | pass {c v : Str} {r : List Str} {col : Colour} (hc : IsColour c col) (hv : IsVertex n v none) : Succeeds env n s .play (c :: v :: r)
  | play {c v : Str} {r : List Str} {col : Colour} {p : Pt} (hc : IsColour c col) (hv : IsVertex n v (some p)) (he : s.board.pos p = none) :
      Succeeds env n s .play (c :: v :: r)
  | genmove {a : Str} {r : List Str} {col : Colour} {g : GenResult} (hc : IsColour a col) (hg : env.generate (s.gameState col false) col = some g)
      (h : UsableAnswer n s.board.pos false false g) : Succeeds env n s .genmove (a :: r)
  | genmoveEx {a : Str} {r : List Str} {col : Colour} {g : GenResult} (hc : IsColour a col) (hg : env.generate (s.gameState col false) col = some g)
      (h : UsableAnswer n s.board.pos (decide ("claim".toList ∈ r)) false g) : Succeeds env n s .genmoveEx (a :: r)
  | genmoveExAsk : Succeeds env n s .genmoveEx []
  | regGenmove {a : Str} {r : List Str} {col : Colour} {g : GenResult} (hc : IsColour a col) (hg : env.generate (s.gameState col true) col = some g)
      (h : UsableAnswer n s.board.pos false true g) : Succeeds env n s .regGenmove (a :: r)
  | undo {args : List Str} (h : s.history ≠ []) : Succeeds env n s .undo args
  | loadsgf {path text : Str} {rest : List Str} {mn : Option Int} {game : Sgf.SgfGame} {komi : Rat} {b : Board} {plays : List Mv} (hmn : IsMoveNumber rest mn)
      (hf : env.file path = some text) (hg : Sgf.SgfGame.fromString env.codec text = .ok game) (ha : game.size ∈ s.acceptable)
      (hk : game.getKomi env.readFloat = .ok komi) (hs : Sgf.getSetupAndMoves game.size game.tree.mainSequence = .ok (b, plays))
      (hl : AllLegal game.size.toNat b.pos (movesBefore mn plays)) : Succeeds env n s .loadsgf (path :: rest)
  | timeLeft {a b d : Str} {r : List Str} {col : Colour} {t k : Int} (hc : IsColour a col) (ht : IsGtpInt b t) (hk : IsGtpInt d k) :
      Succeeds env n s .timeLeft (a :: b :: d :: r)
  | timeSettings {a b d : Str} {r : List Str} {m t k : Int} (hm : IsGtpInt a m) (ht : IsGtpInt b t) (hk : IsGtpInt d k) :
      Succeeds env n s .timeSettings (a :: b :: d :: r)
  | explainLastMove {args : List Str} : Succeeds env n s .explainLastMove args

/-- The command is answered with an internal error. -/
inductive Breaks (env : Env) (n : Nat) (s : GS) : Cmd → List Str → Prop
  | genmove {a : Str} {r : List Str} {col : Colour} (hc : IsColour a col) (h : Nonsense n false false (env.generate (s.gameState col false) col)) :
      Breaks env n s .genmove (a :: r)
  | genmoveEx {a : Str} {r : List Str} {col : Colour} (hc : IsColour a col)
      (h : Nonsense n (decide ("claim".toList ∈ r)) false (env.generate (s.gameState col false) col)) : Breaks env n s .genmoveEx (a :: r)
  | regGenmove {a : Str} {r : List Str} {col : Colour} (hc : IsColour a col) (h : Nonsense n false true (env.generate (s.gameState col true) col)) :
      Breaks env n s .regGenmove (a :: r)
  /-- a bug: place_free_handicap doesn't work for boards for which there is no fixed handicap layout -/
  | placeFreeHandicap {a : Str} {r : List Str} {k : Int} (hk : IsGtpInt a k) (h2 : 2 ≤ k) (hm : k < n * n) (he : Empty s.board.pos) (h : n < 8 ∨ 25 < n) :
      Breaks env n s .placeFreeHandicap (a :: r)

end Gomill.Gtp.Spec
