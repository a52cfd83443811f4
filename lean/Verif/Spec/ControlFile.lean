import Verif.Model.ControlFile
import Verif.Spec.Allplayall
/-
Pathnames, and what is meant by a competition's control file, for C77.
-/
namespace Gomill.Conf.Spec
open Py

/-- The pathname is that of the file called `name` in the directory `dir`: `name`, `dir/name`, or (as pathnames can have too many slashes) `dir//name` and so on. -/
inductive Located : Str → Str → Str → Prop
  | here {name} : '/' ∉ name → Located name [] name
  | root {dir name} : '/' ∉ name → dir ≠ [] → (∀ c ∈ dir, c = '/') → Located (dir ++ name) dir name
  | under {dir name} (n : Nat) : '/' ∉ name → dir ≠ [] → dir.getLast? ≠ some '/' → Located (dir ++ List.replicate (n + 1) '/' ++ name) dir name

/-- The extension of a file's name: from its last dot, if there is something other than dots before it. -/
inductive Ext : Str → Str → Str → Prop
  | none {n rest} : '.' ∉ rest → Ext (List.replicate n '.' ++ rest) (List.replicate n '.' ++ rest) []
  | some {code e} : '.' ∉ e → (∃ c ∈ code, c ≠ '.') → Ext (code ++ '.' :: e) code ('.' :: e)

/-- The pathname of a file in a directory. -/
def inside (dir name : Str) : Str := if dir = [] ∨ dir.getLast? = some '/' then dir ++ name else dir ++ '/' :: name

/-- The extensions of a competition's files. -/
def outputExtensions : List String := [".log", ".status", ".cmd", ".hist", ".report", ".games", ".void", ".gtplogs"]

/-- A line which is blank, or a comment. -/
def Skippable (line : Str) : Prop := ∃ white rest, line = white ++ rest ∧ (∀ c ∈ white, isSpace c = true) ∧ (rest = [] ∨ ∃ r, rest = '#' :: r)

/-- `competition_type = "..."` -/
def TypeLine (line type : Str) : Prop :=
  ∃ white white' q, line = "competition_type".toList ++ white ++ ['='] ++ white' ++ [q] ++ type ++ [q] ∧ (∀ c ∈ white ++ white', isSpace c = true) ∧
    (q = '\'' ∨ q = '"') ∧ type ≠ [] ∧ ∀ c ∈ type, c = '_' ∨ ('a' ≤ c ∧ c ≤ 'z') ∨ ('A' ≤ c ∧ c ≤ 'Z') ∨ ('0' ≤ c ∧ c ≤ '9')

/-- The first line of the file, other than blank lines and comments, says what the competition type is. -/
def TypeOf (source type : Str) : Prop :=
  ∃ before line after, source = join ['\n'] (before ++ line :: after) ∧ (∀ l ∈ before ++ line :: after, '\n' ∉ l) ∧ (∀ l ∈ before, Skippable l) ∧
    ¬ Skippable line ∧ TypeLine line type

/-- The competition the configuration describes, for this competition type. -/
inductive Describes {τ : Type} (C : ControlWorld τ) (dir code : Str) (config : List (Str × Val)) : Str → Competition τ → Prop
  | playoff {p} : initPlayoff C.world (some dir) code config = .ok p → Describes C dir code config "playoff".toList (.playoff p)
  | allplayall {a} : initAllplayall C.world (some dir) code config = .ok a → Describes C dir code config "allplayall".toList (.allplayall a)
  | cem {t} : C.tuner "ce_tuner".toList (some dir) code config = .ok t → Describes C dir code config "ce_tuner".toList (.tuner t)
  | mcts {t} : C.tuner "mc_tuner".toList (some dir) code config = .ok t → Describes C dir code config "mc_tuner".toList (.tuner t)

/-- The competition can't be made from the configuration. -/
inductive CantDescribe {τ : Type} (C : ControlWorld τ) (dir code : Str) (config : List (Str × Val)) : Str → Err → Prop
  | playoff {e} : initPlayoff C.world (some dir) code config = .error e → CantDescribe C dir code config "playoff".toList e
  | allplayall {e} : initAllplayall C.world (some dir) code config = .error e → CantDescribe C dir code config "allplayall".toList e
  | cem {e} : C.tuner "ce_tuner".toList (some dir) code config = .error e → CantDescribe C dir code config "ce_tuner".toList e
  | mcts {e} : C.tuner "mc_tuner".toList (some dir) code config = .error e → CantDescribe C dir code config "mc_tuner".toList e

/-- The competition types. -/
def competitionTypes : List String := ["playoff", "allplayall", "ce_tuner", "mc_tuner"]

/-- The configuration says it is for this type of competition. -/
def SaysType (config : List (Str × Val)) (type : Str) : Prop :=
  config.lookup "competition_type".toList = some (.str type) ∨ config.lookup "competition_type".toList = some (.unicode type)

/-- The value of a true/false setting. -/
def RingmasterFlag (W : World) (config : List (Str × Val)) (name : String) (default b : Bool) : Prop :=
  SettingIs W (fun n => config.lookup n) name (fun v b => v = .bool b) (some default) b

/-- The configuration's settings for the ringmaster are wrong: `m` describes the first which is. -/
inductive FlagError (W : World) (config : List (Str × Val)) (m : Str) : Prop
  | mk (pre : List (String × Bool)) (name : String) (default : Bool) (post : List (String × Bool)) (why : Str) :
      pre ++ (name, default) :: post = [("record_games", true), ("stderr_to_log", true), ("skip_player_checks", false)] →
      (∀ s ∈ pre, ∃ b, RingmasterFlag W config s.1 s.2 b) →
      ((∃ k, config.lookup name.toList = some (.proxy k) ∧ W.resolve k = .error why) ∨
       (why = "invalid True/False value".toList ∧ ∃ v, Given W (config.lookup name.toList) v ∧ ∀ b, v ≠ .bool b)) →
      m = "'".toList ++ name.toList ++ "': ".toList ++ why → FlagError W config m

/-- The ringmaster can read the control file, and it says what type of competition it is, is encoded in utf-8, and is Python code which makes these settings. -/
inductive Interpreted {τ : Type} (C : ControlWorld τ) (control : Str) (type : Str) (config : List (Str × Val)) : Prop
  | mk (source : Str) : C.read control = .ok source → TypeOf source type → type ∈ competitionTypes.map String.toList → Sgf.utf8Valid source = true →
      C.exec type source = .ok config → SaysType config type → Interpreted C control type config

/-- What is wrong with a control file. -/
inductive Refusal {τ : Type} (C : ControlWorld τ) (control dir code : Str) : Str → Prop
  | read {m} : C.read control = .error m → Refusal C control dir code ("failed to read control file:\n".toList ++ m)
  | noType {source} : C.read control = .ok source → (∀ t, ¬ TypeOf source t) → Refusal C control dir code ("error in control file:\ncan't find competition_type".toList)
  | unknown {source type} : C.read control = .ok source → TypeOf source type → type ∉ competitionTypes.map String.toList →
      Refusal C control dir code ("error in control file:\nunknown competition type: ".toList ++ type)
  | encoding {source type} : C.read control = .ok source → TypeOf source type → type ∈ competitionTypes.map String.toList → Sgf.utf8Valid source = false →
      Refusal C control dir code ("error in control file:\nfile is not encoded in utf-8".toList)
  | python {source type m} : C.read control = .ok source → TypeOf source type → type ∈ competitionTypes.map String.toList → Sgf.utf8Valid source = true →
      C.exec type source = .error m → Refusal C control dir code ("error in control file:\n".toList ++ m)
  | mismatch {source type config} : C.read control = .ok source → TypeOf source type → type ∈ competitionTypes.map String.toList → Sgf.utf8Valid source = true →
      C.exec type source = .ok config → ¬ SaysType config type → Refusal C control dir code ("error in control file:\ncompetition_type improperly specified".toList)
  | flag {type config m} : Interpreted C control type config → FlagError C.world config m → Refusal C control dir code ("error in control file:\n".toList ++ m)
  | settings {type config e} : Interpreted C control type config → (∀ m, ¬ FlagError C.world config m) → CantDescribe C dir code config type e → e.kind = .controlFile →
      Refusal C control dir code ("error in control file:\n".toList ++ e.msg)
  | unhandled {type config e} : Interpreted C control type config → (∀ m, ¬ FlagError C.world config m) → CantDescribe C dir code config type e → e.kind ≠ .controlFile →
      Refusal C control dir code ("unhandled error in control file:\n".toList ++ C.trace e)

end Gomill.Conf.Spec
