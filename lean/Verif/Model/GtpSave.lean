import Verif.Model.GtpState
import Verif.Model.SgfRecord
/-
Model of gomill-savesgf (gomill/gtp_states.py:528-573).
-/
namespace Gomill.Gtp
open Py Sgf

/-- What gomill-savesgf depends on: the codecs, float formatting, `__version__`, the date, and whether `_save_file` can write
the file (otherwise it raises EnvironmentError). -/
structure SaveEnv where
  encodings : Encodings
  floats : Floats
  version : Str
  date : Str
  canWrite : Str → Str → Bool

/-- `s.replace(xy, [z])` for the two-character string xy. -/
def replacePair (x y z : Char) : Str → Str
  | a :: b :: r => if a = x ∧ b = y then z :: replacePair x y z r else a :: replacePair x y z (b :: r)
  | l => l

/-- gtp_states.py:554-561: interpret an extra argument: the identifier and the value (None: report_bad_arguments).
`isalpha` and `upper` are those of the C locale. -/
def parseExtra (arg : Str) : Option (Str × Str) :=
  match arg.span (fun c => c ≠ '=') with
  | (_, []) => none
  | (identifier, _ :: value) =>
    if identifier ≠ [] ∧ identifier.all Char.isAlpha = true then
      some (identifier.map Char.toUpper, replacePair '\\' '\\' '\\' (replacePair '\\' '_' ' ' value))
    else none

/-- An exception that the handler doesn't catch. -/
def raised {α : Type} : Except Exc α → Except Outcome α
  | .ok a => .ok a
  | .error _ => .error (.exception [])

/-- gtp_states.py:553-562: the extra arguments. -/
def setExtras (g : GameRec) : List Str → Lib → Except Outcome Lib
  | [], L => .ok L
  | arg :: args, L => match parseExtra arg with
    | none => .error (.gtpError "invalid arguments".toList)
    | some (identifier, value) => do
      let L ← raised (L.update g g.root (fun P m => setRaw P m identifier (escapeText value)))
      setExtras g args L

/-- gtp_states.py:548-552: the properties of the root node. -/
def setSaveProps (V : SaveEnv) (s : GS) (g : GameRec) (L : Lib) : Except Exc Lib := do
  let L ← L.setRootMaybe g ['K', 'M'] (some (.real (.fin s.komi)))
  let L ← L.setRootMaybe g ['A', 'P'] (some (.pair ("gomill".toList, V.version)))
  let L ← L.setRootMaybe g ['D', 'T'] (some (.str V.date))
  L.setRootMaybe g ['H', 'A'] (s.handicap.map .num)

/-- gtp_states.py:563-569: the position and the moves. -/
def addSavePosition (s : GS) (g : GameRec) (L : Lib) : Except Exc Lib := do
  let L ← L.setInitialPosition g s.base
  let L ← Lib.addMoves g (s.history.map (fun m => (m.colour, m.move, m.comments))) L
  L.indicateFirstPlayer g

/-- gtp_states.py:546-571: the contents of the file, or how the handler fails.  The Sgf_game is a new one, used by nothing
else, so it's modelled as the only one. -/
def GS.sgfText (V : SaveEnv) (s : GS) (extras : List Str) : Except Outcome Str := do
  let L ← raised (Lib.newGame V.encodings V.floats ⟨[], []⟩ s.boardSize "UTF-8".toList)
  match L.games.getLast? with
  | none => .error (.exception [])
  | some g => do
    let L ← raised (setSaveProps V s g L)
    let L ← setExtras g extras L
    let L ← raised (addSavePosition s g L)
    raised (L.serialise V.encodings g (some 79))

/-- gtp_states.py:540-573 `handle_savesgf`: the new state and the outcome, and the file written (pathname and contents). -/
def GS.savesgf (V : SaveEnv) (s : GS) (args : List Str) : (GS × Outcome) × Option (Str × Str) :=
  match args with
  | [] => (err s "invalid arguments", none)
  | pathname :: extras => match s.sgfText V extras with
    | .error o => ((s, o), none)
    | .ok contents =>
      if V.canWrite pathname contents then ((s, .value none), some (pathname, contents))
      else (err s "error writing file", none)

end Gomill.Gtp
