import Verif.Model.TwoGtp
import Verif.Props.GameJobSgf
/-
What an SGF file written by twogtp should have in it, for C101 and C102.
-/
namespace Gomill.Gtp
open Py
open Gomill.Sgf
open Spec

/-- What is in the record of a game played by twogtp: `P` and `seq` are the presenter and the main sequence of an SGF game; `d` describes the engines. -/
structure TwoRecord {σ : Type} (W : TwoWorld σ) (o : TwoOpts) (d : Colour → EngineDesc) (g : GtpGame σ (List Str)) (P : Presenter) (seq : List PropMap) : Prop where
  presenter : P = Presenter.new o.size utf8Codec W.F
  length : seq.length = g.runner.moves.length + 1
  moves : ∃ b, Sgf.getSetupAndMoves P.size seq = .ok (b, movesOf g.runner) ∧ ReachableBoard o.size b ∧ ∀ p, b.pos p = none
  komi : ∀ root, seq.head? = some root → getKomi P root = .ok (.real (.fin (if -1/10000 < o.komi ∧ o.komi < 1/10000 then 0 else o.komi)))
  handicap : ∀ root, seq.head? = some root → getHandicap P root = .ok none
  result : ∀ root, seq.head? = some root → HasText P ['R', 'E'] (g.result.map (fun r => r.res.sgfResult)) root
  application : ∀ root, seq.head? = some root → ∃ a v, nodeGet P root ['A', 'P'] = .ok (.pair (a, v)) ∧ Normalised true "Gomill twogtp".toList a ∧ Normalised true W.version v
  black : ∀ root, seq.head? = some root → HasText P ['P', 'B'] (some (nameOf true (g.runner.env.gc.code .b) (d .b))) root
  white : ∀ root, seq.head? = some root → HasText P ['P', 'W'] (some (nameOf true (g.runner.env.gc.code .w) (d .w))) root
  gameName : ∀ root, seq.head? = some root → HasText P ['G', 'N'] none root
  rootComment : ∀ root, seq.head? = some root → Says P (if g.runner.moves = [] then endTexts g [] else []) root
  moveComments : List.Forall₂ (Comment P) (g.runner.moves.map (fun x => x.2.2)).dropLast seq.tail.dropLast
  lastComment : ∀ m, seq.tail.getLast? = some m → Says P ((g.runner.moves.map (fun x => x.2.2)).getLast?.join.toList ++ endTexts g []) m

/-- The text is an SGF file with the record of this game. -/
def TwoFile {σ : Type} (W : TwoWorld σ) (o : TwoOpts) (d : Colour → EngineDesc) (g : GtpGame σ (List Str)) (text : Str) : Prop :=
  ∀ M : Lib, ∃ M' rec, M.fromString W.E W.F text none = .ok M' ∧ M'.games = M.games ++ [rec] ∧ TwoRecord W o d g rec.presenter (M'.mainSequence rec)

/-- What is assumed for the record of a game to be made: all the texts are UTF-8, and those which are put into comments have no carriage returns. -/
structure TwoTidy {σ : Type} (W : TwoWorld σ) (d : Colour → EngineDesc) (isFloat : Rat → Prop) (g : GtpGame σ (List Str)) : Prop where
  names : NamesOK W.E
  utf8 : W.E.normalise "UTF-8".toList = some "UTF-8".toList ∧ W.E.codec "UTF-8".toList = utf8Codec
  floats : FloatsOK W.F isFloat
  version : utf8Valid W.version = true
  date : utf8Valid W.date = true
  short : ∀ c s, (d c).short = some s → utf8Valid s = true
  code : ∀ c, utf8Valid (g.runner.env.gc.code c) = true
  runner : Recordable isFloat g.runner
  result : TidyResult g

end Gomill.Gtp
