import Verif.Model.Tournament
import Verif.Model.GameJob
import Verif.Model.Handicap
/-
Model of gomill/settings.py, gomill/competitions.py:37-287 and 447-512, tournaments.py:14-76 and 107-120 and playoffs.py:41-137: how values from a
control file become players, matchups and games.

Values in a control file are arbitrary Python objects.  Those the code looks at are modelled by `Val`; everything else is `Val.obj`, and what the
Python builtins `list()` and `dict()` make of a value is described by a `World`, as are `shlex.split`, `os.path.expanduser`, `float(int)`, and `"%s" % v`.

Not modelled: `interpret_colour`, `interpret_callable` and `interpret_any` (not used here), and the tuners' settings.
-/
namespace Gomill.Conf
open Py

/-- The classes of exception which the code distinguishes. (UnicodeError is a ValueError.) -/
inductive Kind where
  | value
  | key
  | controlFile
  | other
  deriving DecidableEq, Repr

/-- An exception: class and text. -/
structure Err where
  kind : Kind
  msg : Str
  deriving DecidableEq, Repr

def Err.value (s : String) : Err := ⟨.value, s.toList⟩

/-- A value in a control file. `int` and `long` are Python 2's; a `unicode` is a list of characters; `quiet` is a Quiet_config (settings.py:365-381):
the name of its class, its positional arguments, and its keyword arguments in order of name; `proxy` is a Config_proxy. -/
inductive Val where
  | none
  | bool (b : Bool)
  | int (n : Int)
  | long (n : Int)
  | float (x : Num)
  | str (s : Str)
  | unicode (s : Str)
  | quiet (cls : Str) (args : List Val) (kwargs : List (Str × Val))
  | proxy (k : Nat)
  | obj (k : Nat)

/-- A value after interpretation. -/
inductive SVal where
  | none
  | bool (b : Bool)
  | int (n : Int)
  | float (x : Num)
  | str (s : Str)
  | strs (l : List Str)
  | vals (l : List Val)
  | pairs (l : List (Str × Str))
  | configs (l : List (Str × Val))

/-- The parts of Python which aren't modelled. -/
structure World where
  /-- `list(v)`, unless it raises an exception -/
  listOf : Val → Option (List Val)
  /-- `dict(v).items()`, unless it raises an exception -/
  mapOf : Val → Option (List (Val × Val))
  /-- Config_proxy.resolve (settings.py:357-362): the object, or the text of the ValueError -/
  resolve : Nat → Except Str Val
  /-- `float(n)`, unless it raises OverflowError -/
  floatOf : Int → Option Num
  /-- `shlex.split(s)`: the list, or the text of the ValueError -/
  shlex : Str → Except Str (List Str)
  /-- `"%s" % v` for a value which isn't a str -/
  showVal : Val → Except Err Str
  /-- `os.path.expanduser(s)`, unless it raises an exception -/
  expandUser : Str → Option Str

/-! ### Interpreters -/

/-- settings.py:23-26 `interpret_bool`. -/
def interpretBool : Val → Except Err Bool
  | .bool b => .ok b
  | _ => .error (.value "invalid True/False value")

/-- settings.py:28-31 `interpret_int`.  `True` and `False` are ints (1 and 0). -/
def interpretInt : Val → Except Err Int
  | .int n => .ok n
  | .bool b => .ok (if b then 1 else 0)
  | _ => .error (.value "invalid integer")

/-- settings.py:33-38 `interpret_positive_int`. -/
def interpretPositiveInt (v : Val) : Except Err Int :=
  match interpretInt v with
  | .error e => .error e
  | .ok n => if n ≤ 0 then .error (.value "must be positive integer") else .ok n

/-- settings.py:40-45 `interpret_float`. -/
def interpretFloat (W : World) (v : Val) : Except Err Num :=
  match v with
  | .float x => .ok x
  | .int n => conv n
  | .long n => conv n
  | .bool b => conv (if b then 1 else 0)
  | _ => .error (.value "invalid float")
where
  conv (n : Int) : Except Err Num :=
    match W.floatOf n with
    | some x => .ok x
    | none => .error ⟨.other, "int too large to convert to float".toList⟩

/-- `s.encode("ascii")` works. -/
def isAscii (s : Str) : Bool := s.all (fun c => c.toNat < 128)

/-- settings.py:57-59: the check for NUL. -/
def refuseNul (s : Str) : Except Err Str :=
  if '\x00' ∈ s then .error (.value "contains NUL") else .ok s

/-- settings.py:47-59 `interpret_8bit_string`. -/
def interpret8bit : Val → Except Err Str
  | .str s => refuseNul s
  | .unicode s => if isAscii s then refuseNul s else .error (.value "non-ascii character in unicode string")
  | _ => .error (.value "not a string")

/-- `u.encode("utf-8")`, for one character. -/
def utf8Char (n : Nat) : Str :=
  if n < 0x80 then [Char.ofNat n]
  else if n < 0x800 then [Char.ofNat (0xc0 + n / 64), Char.ofNat (0x80 + n % 64)]
  else if n < 0x10000 then [Char.ofNat (0xe0 + n / 4096), Char.ofNat (0x80 + n / 64 % 64), Char.ofNat (0x80 + n % 64)]
  else [Char.ofNat (0xf0 + n / 262144), Char.ofNat (0x80 + n / 4096 % 64), Char.ofNat (0x80 + n / 64 % 64), Char.ofNat (0x80 + n % 64)]

/-- settings.py:61-72 `interpret_as_utf8`. -/
def interpretUtf8 : Val → Except Err Str
  | .str s => if Sgf.utf8Valid s then .ok s else .error (.value "not a valid utf-8 string")
  | .unicode s => .ok (s.flatMap (fun c => utf8Char c.toNat))
  | .none => .ok []
  | _ => .error (.value "invalid string")

/-- settings.py:74-75 `interpret_as_utf8_stripped`. -/
def interpretUtf8Stripped (v : Val) : Except Err Str :=
  match interpretUtf8 v with
  | .ok s => .ok (strip s)
  | .error e => .error e

/-- settings.py:78-79 `clean_string`. -/
def cleanString (s : Str) : Str := s.map (fun c => if c.toNat < 0x20 ∨ (0x7f ≤ c.toNat ∧ c.toNat ≤ 0x9f) then '?' else c)

/-- settings.py:94-98: the checks of `interpret_identifier` on an 8-bit string. -/
def checkIdentifier (s : Str) : Except Err Str :=
  if s = [] then .error (.value "empty string")
  else if s.all Tourn.isIdentChar then .ok s
  else .error ⟨.value, "contains forbidden character: ".toList ++ cleanString s⟩

/-- settings.py:84-98 `interpret_identifier`. -/
def interpretIdentifier : Val → Except Err Str
  | .unicode s =>
    if isAscii s then checkIdentifier s
    else .error ⟨.value, "contains forbidden character: ".toList ++ cleanString (s.map (fun c => if c.toNat < 128 then c else '?'))⟩
  | .str s => checkIdentifier s
  | _ => .error (.value "not a string")

/-- settings.py:115-120 `interpret_enum`, for ASCII strings. (A unicode string equal to one of the values is accepted; it's used only in comparisons with str.) -/
def interpretEnum (values : List Str) : Val → Except Err Str
  | .str s => if s ∈ values then .ok s else .error (.value "unknown value")
  | .unicode s => if s ∈ values then .ok s else .error (.value "unknown value")
  | _ => .error (.value "unknown value")

/-- settings.py:153-163 `interpret_sequence`. -/
def interpretSequence (W : World) (v : Val) : Except Err (List Val) :=
  match W.listOf v with
  | some l => .ok l
  | none => .error (.value "not a sequence")

/-- settings.py:144-147: the elements of a list of strings. -/
def interpretStrings : List Val → Except Err (List Str)
  | [] => .ok []
  | v :: l => match interpret8bit v with
    | .error e => .error (if e.kind = .value then ⟨.value, "element ".toList ++ e.msg⟩ else e)
    | .ok s => match interpretStrings l with
      | .error e => .error e
      | .ok r => .ok (s :: r)

/-- settings.py:137-147: the list of `interpret_shlex_sequence`. -/
def shlexList (W : World) (v : Val) : Except Err (List Str) :=
  match v with
  | .str _ => ofString v
  | .unicode _ => ofString v
  | _ => match W.listOf v with
    | none => .error (.value "not a string or a sequence")
    | some l => interpretStrings l
where
  ofString (v : Val) : Except Err (List Str) :=
    match interpret8bit v with
    | .error e => .error e
    | .ok s => match W.shlex s with
      | .ok l => .ok l
      | .error m => .error ⟨.value, m⟩

/-- settings.py:127-150 `interpret_shlex_sequence`. -/
def interpretShlex (W : World) (v : Val) : Except Err (List Str) :=
  match shlexList W v with
  | .error e => .error e
  | .ok [] => .error (.value "empty")
  | .ok (s :: l) => .ok (s :: l)

/-- settings.py:172-179: the loop of `interpret_sequence_of`, from item `i`. -/
def interpretItems {α : Type} (f : Val → Except Err α) : Nat → List Val → Except Err (List α)
  | _, [] => .ok []
  | i, v :: l => match f v with
    | .error e => .error (if e.kind = .value then ⟨.value, "item ".toList ++ strInt i ++ ": ".toList ++ e.msg⟩ else e)
    | .ok x => match interpretItems f (i + 1) l with
      | .error e => .error e
      | .ok r => .ok (x :: r)

/-- settings.py:182-197 `interpret_sequence_of_quiet_configs`. -/
def interpretConfigs (W : World) (cls : Str) (allowSimple : Bool) (v : Val) : Except Err (List Val) :=
  match interpretSequence W v with
  | .error e => .error e
  | .ok l => interpretItems one 0 l
where
  one (v : Val) : Except Err Val :=
    match v with
    | .quiet c args kwargs => if c = cls then .ok (.quiet c args kwargs) else other v
    | v => other v
  other (v : Val) : Except Err Val :=
    if allowSimple then .ok (.quiet cls [v] []) else .error ⟨.value, "not a ".toList ++ cls⟩

/-- settings.py:224-234: the loop of `interpret_map_of`. -/
def interpretEntries {α : Type} (key : Val → Except Err Str) (value : Val → Except Err α) : List (Val × Val) → Except Err (List (Str × α))
  | [] => .ok []
  | (k, v) :: l => match key k with
    | .error e => .error (if e.kind = .value then ⟨.value, "bad key: ".toList ++ e.msg⟩ else e)
    | .ok k => match value v with
      | .error e => .error (if e.kind = .value then ⟨.value, "bad value for '".toList ++ k ++ "': ".toList ++ e.msg⟩ else e)
      | .ok x => match interpretEntries key value l with
        | .error e => .error e
        | .ok r => .ok ((k, x) :: r)

/-- Insert an entry into a list which is in order of key. -/
def insertKey {α : Type} (x : Str × α) : List (Str × α) → List (Str × α)
  | [] => [x]
  | y :: l => if x.1 ≤ y.1 then x :: y :: l else y :: insertKey x l

/-- `sorted(l)`, when all the keys are different. -/
def sortByKey {α : Type} (l : List (Str × α)) : List (Str × α) := l.foldr insertKey []

/-- settings.py:213-237 `interpret_map_of`.  The keys of a dict are distinct, so sorting looks only at the keys. -/
def interpretMapOf {α : Type} (W : World) (key : Val → Except Err Str) (value : Val → Except Err α) (v : Val) : Except Err (List (Str × α)) :=
  match W.mapOf v with
  | none => .error (.value "not a map")
  | some l => match interpretEntries key value l with
    | .error e => .error e
    | .ok r => .ok (sortByKey r)

/-- settings.py:239-245 `allow_none`. -/
def allowNone {α : Type} (f : Val → Except Err α) : Val → Except Err (Option α)
  | .none => .ok none
  | v => match f v with
    | .ok x => .ok (some x)
    | .error e => .error e

/-! ### Settings -/

/-- settings.py:249-277 Setting. (A default made by a defaultmaker is always the same here.) -/
structure Setting where
  name : Str
  interpreter : Val → Except Err SVal
  default : Option SVal := none

/-- `"'%s': %s" % (name, e)` -/
def inSetting (name msg : Str) : Str := '\'' :: name ++ "': ".toList ++ msg

/-- settings.py:279-290 `Setting.interpret`. -/
def Setting.interpret (s : Setting) (v : Val) : Except Err SVal :=
  match s.interpreter v with
  | .ok x => .ok x
  | .error e => .error (if e.kind = .value then ⟨.value, inSetting s.name e.msg⟩ else e)

/-- settings.py:318-322: resolve a Config_proxy. -/
def resolveProxy (W : World) (name : Str) : Val → Except Err Val
  | .proxy k => match W.resolve k with
    | .ok v => .ok v
    | .error m => .error ⟨.value, inSetting name m⟩
  | v => .ok v

/-- settings.py:317-324: the value which the configuration gives. -/
def Setting.given (W : World) (s : Setting) (config : List (Str × Val)) : Except Err SVal :=
  match config.lookup s.name with
  | none => .error ⟨.key, s.name⟩
  | some v => match resolveProxy W s.name v with
    | .error e => .error e
    | .ok v => s.interpret v

/-- settings.py:325-329 with 267-277: what to do about a KeyError. -/
def Setting.fallback (s : Setting) (applyDefaults : Bool) : Option SVal := if applyDefaults then s.default else none

/-- settings.py:315-334: one setting; `none` if it's to be left out. -/
def Setting.load (W : World) (config : List (Str × Val)) (applyDefaults allowMissing : Bool) (s : Setting) : Except Err (Option SVal) :=
  match s.given W config with
  | .ok x => .ok (some x)
  | .error e =>
    if e.kind = .key then match s.fallback applyDefaults with
      | some d => .ok (some d)
      | none => if allowMissing then .ok none else .error ⟨.value, '\'' :: s.name ++ "' not specified".toList⟩
    else .error e

/-- `d[k] = v` on a dict. -/
def put {α : Type} (d : List (Str × α)) (k : Str) (v : α) : List (Str × α) := d.filter (fun e => e.1 ≠ k) ++ [(k, v)]

/-- settings.py:292-336 `load_settings`. -/
def loadSettings (W : World) (config : List (Str × Val)) (applyDefaults allowMissing : Bool) : List Setting → List (Str × SVal) → Except Err (List (Str × SVal))
  | [], result => .ok result
  | s :: ss, result => match s.load W config applyDefaults allowMissing with
    | .error e => .error e
    | .ok none => loadSettings W config applyDefaults allowMissing ss result
    | .ok (some x) => loadSettings W config applyDefaults allowMissing ss (put result s.name x)

/-- settings.py:412-419: adding the keyword arguments. -/
def addKeywords (allowed : List Str) : List (Str × Val) → List (Str × Val) → Except Err (List (Str × Val))
  | [], result => .ok result
  | (name, v) :: l, result =>
    if name ∉ allowed then .error ⟨.value, "unknown argument '".toList ++ name ++ ['\'']⟩
    else if name ∈ result.map Prod.fst then .error ⟨.value, name ++ " specified as both positional and keyword argument".toList⟩
    else addKeywords allowed l (put result name v)

/-- settings.py:390-420 `Quiet_config.resolve_arguments`. -/
def resolveArguments (positional keyword : List Str) (args : List Val) (kwargs : List (Str × Val)) : Except Err (List (Str × Val)) :=
  if args.length > positional.length then .error (.value "too many positional arguments")
  else addKeywords (positional ++ keyword) kwargs (positional.zip args)

/-! ### Players -/

/-- Make an interpreter for a Setting. -/
def sv {α : Type} (f : Val → Except Err α) (g : α → SVal) (v : Val) : Except Err SVal :=
  match f v with
  | .ok x => .ok (g x)
  | .error e => .error e

/-- None or a value. -/
def optVal {α : Type} (g : α → SVal) : Option α → SVal
  | none => .none
  | some x => g x

/-- competitions.py:37-54 `_player_settings`. -/
def playerSettings (W : World) : List Setting := [
  { name := "command".toList, interpreter := sv (interpretShlex W) .strs },
  { name := "cwd".toList, interpreter := sv (allowNone interpret8bit) (optVal .str), default := some .none },
  { name := "environ".toList, interpreter := sv (allowNone (interpretMapOf W interpret8bit interpret8bit)) (optVal .pairs), default := some .none },
  { name := "is_reliable_scorer".toList, interpreter := sv interpretBool .bool, default := some (.bool true) },
  { name := "allow_claim".toList, interpreter := sv interpretBool .bool, default := some (.bool false) },
  { name := "gtp_aliases".toList, interpreter := sv (allowNone (interpretMapOf W interpret8bit interpret8bit)) (optVal .pairs), default := some (.pairs []) },
  { name := "startup_gtp_commands".toList, interpreter := sv (allowNone (interpretSequence W)) (optVal .vals), default := some (.vals []) },
  { name := "discard_stderr".toList, interpreter := sv interpretBool .bool, default := some (.bool false) },
  { name := "sgf_player_name_from_gtp".toList, interpreter := sv interpretBool .bool, default := some (.bool true) } ]

/-- `os.path.join(a, p)`; AttributeError if `a` is None and is needed. -/
def pathJoin (a : Option Str) (p : Str) : Option Str :=
  if p.head? = some '/' then some p
  else match a with
    | none => none
    | some a => if a = [] ∨ a.getLast? = some '/' then some (a ++ p) else some (a ++ '/' :: p)

/-- competitions.py:96-120 `resolve_pathname`. -/
def resolvePathname (W : World) (base : Option Str) : Option Str → Except Err (Option Str)
  | none => .ok none
  | some p =>
    if p = [] then .error (.value "empty pathname")
    else match W.expandUser p with
      | none => .error (.value "bad pathname")
      | some p => match pathJoin base p with
        | none => .error (.value "relative path supplied but base directory isn't set")
        | some p => .ok (some p)

/-- A ControlFileError made from another exception. -/
def cfe (prefix_ : String) (e : Err) : Err := ⟨.controlFile, prefix_.toList ++ e.msg⟩

/-- competitions.py:241-246: the command line. (TypeError, which the program never meets, if the setting has another type: see `strsOf` and so on.) -/
def commandLine (W : World) (base : Option Str) (l : List Str) : Except Err (List Str) :=
  match l with
  | [] => .error ⟨.controlFile, "'command': list index out of range".toList⟩
  | c :: l =>
    if '/' ∈ c then match resolvePathname W base (some c) with
      | .error e => .error (cfe "'command': " e)
      | .ok none => .error ⟨.other, []⟩
      | .ok (some c) => .ok (c :: l)
    else .ok (c :: l)

/-- A word of a GTP command given as a list.  Anything but a string makes `is_well_formed_gtp_word` fail. (Words which are unicode strings are kept as they
are; here they are treated as if their characters were bytes.) -/
def wordOf : Val → Option Str
  | .str s => some s
  | .unicode s => some s
  | _ => none

/-- competitions.py:263-269: the words of a startup command, if they are well-formed; none for the exceptions caught at line 270. -/
def commandWords (W : World) (v : Val) : Option (List Str) :=
  match v with
  | .str _ => ofString v
  | .unicode _ => ofString v
  | _ => match W.listOf v with
    | none => none
    | some l => match l.mapM wordOf with
      | none => none
      | some ws => checked ws
where
  checked (ws : List Str) : Option (List Str) := if ws.all Gtp.isWellFormedWord then some ws else none
  ofString (v : Val) : Option (List Str) :=
    match interpret8bit v with
    | .error _ => none
    | .ok s => checked (Gtp.splitWs s)

/-- `"%s" % v` -/
def showOf (W : World) : Val → Except Err Str
  | .str s => .ok s
  | v => W.showVal v

/-- competitions.py:261-274: the startup commands. -/
def startupCommands (W : World) : List Val → Except Err (List (Str × List Str))
  | [] => .ok []
  | v :: l => match commandWords W v with
    | none => match showOf W v with
      | .ok s => .error ⟨.controlFile, "'startup_gtp_commands': invalid command ".toList ++ s⟩
      | .error e => .error (if e.kind = .value then cfe "'startup_gtp_commands': " e else e)
    | some [] => .error ⟨.other, "list index out of range".toList⟩
    | some (w :: ws) => match startupCommands W l with
      | .error e => .error e
      | .ok r => .ok ((w, ws) :: r)

/-- competitions.py:276-285: the aliases. -/
def gtpAliases : List (Str × Str) → List (Str × Str) → Except Err (List (Str × Str))
  | [], d => .ok d
  | (a, b) :: l, d =>
    if !Gtp.isWellFormedWord a then .error ⟨.controlFile, "'gtp_aliases': invalid command ".toList ++ cleanString a⟩
    else if !Gtp.isWellFormedWord b then .error ⟨.controlFile, "'gtp_aliases': invalid command ".toList ++ cleanString b⟩
    else gtpAliases l (put d a b)

/-- Reading a setting of a known type. -/
def noneErr : Err := ⟨.other, "'NoneType' object is not iterable".toList⟩

def strsOf (d : List (Str × SVal)) (name : String) : Except Err (List Str) :=
  match d.lookup name.toList with
  | some (.strs l) => .ok l
  | _ => .error noneErr
def optStrOf (d : List (Str × SVal)) (name : String) : Except Err (Option Str) :=
  match d.lookup name.toList with
  | some (.str s) => .ok (some s)
  | some .none => .ok none
  | _ => .error noneErr
def optPairsOf (d : List (Str × SVal)) (name : String) : Except Err (Option (List (Str × Str))) :=
  match d.lookup name.toList with
  | some (.pairs l) => .ok (some l)
  | some .none => .ok none
  | _ => .error noneErr
/-- Iterating over the value: TypeError for None. -/
def pairsOf (d : List (Str × SVal)) (name : String) : Except Err (List (Str × Str)) :=
  match d.lookup name.toList with
  | some (.pairs l) => .ok l
  | _ => .error noneErr
def valsOf (d : List (Str × SVal)) (name : String) : Except Err (List Val) :=
  match d.lookup name.toList with
  | some (.vals l) => .ok l
  | _ => .error noneErr
def boolOf (d : List (Str × SVal)) (name : String) : Except Err Bool :=
  match d.lookup name.toList with
  | some (.bool b) => .ok b
  | _ => .error noneErr
def intOf (d : List (Str × SVal)) (name : String) : Except Err Int :=
  match d.lookup name.toList with
  | some (.int n) => .ok n
  | _ => .error noneErr
def optIntOf (d : List (Str × SVal)) (name : String) : Except Err (Option Int) :=
  match d.lookup name.toList with
  | some (.int n) => .ok (some n)
  | some .none => .ok none
  | _ => .error noneErr
def floatOf (d : List (Str × SVal)) (name : String) : Except Err Num :=
  match d.lookup name.toList with
  | some (.float x) => .ok x
  | _ => .error noneErr
def strOf (d : List (Str × SVal)) (name : String) : Except Err Str :=
  match d.lookup name.toList with
  | some (.str s) => .ok s
  | _ => .error noneErr

/-- competitions.py:56-61 Player_config. -/
def playerPositional : List Str := ["command".toList]

/-- competitions.py:248-251: the working directory. -/
def resolveCwd (W : World) (base : Option Str) (p : Option Str) : Except Err (Option Str) :=
  match resolvePathname W base p with
  | .ok p => .ok p
  | .error e => .error (cfe "'cwd': " e)

/-- competitions.py:226-287 `game_jobs_player_from_config`. -/
def playerFromConfig (W : World) (base : Option Str) (code : Str) (args : List Val) (kwargs : List (Str × Val)) : Except Err Gtp.JobPlayer := do
  let arguments ← resolveArguments playerPositional ((playerSettings W).map Setting.name) args kwargs
  let config ← loadSettings W arguments true false (playerSettings W) []
  let cmdArgs ← commandLine W base (← strsOf config "command")
  let cwd ← resolveCwd W base (← optStrOf config "cwd")
  let environ ← optPairsOf config "environ"
  let isReliableScorer ← boolOf config "is_reliable_scorer"
  let allowClaim ← boolOf config "allow_claim"
  let discardStderr ← boolOf config "discard_stderr"
  let nameFromGtp ← boolOf config "sgf_player_name_from_gtp"
  let startup ← startupCommands W (← valsOf config "startup_gtp_commands")
  let aliases ← gtpAliases (← pairsOf config "gtp_aliases") []
  return { code, cmdArgs, cwd, environ, isReliableScorer, allowClaim, discardStderr, nameFromGtp, startup, aliases }

/-- competitions.py:205-208 `interpret_pc`. -/
def interpretPc : Val → Except Err Val
  | .quiet c args kwargs => if c = "Player".toList then .ok (.quiet c args kwargs) else .error (.value "not a Player")
  | _ => .error (.value "not a Player")

/-- competitions.py:218-224: the loop over the players. -/
def makePlayers (W : World) (base : Option Str) : List (Str × Val) → List (Str × Gtp.JobPlayer) → Except Err (List (Str × Gtp.JobPlayer))
  | [], ps => .ok ps
  | (code, .quiet _ args kwargs) :: l, ps => match playerFromConfig W base code args kwargs with
    | .error e => .error ⟨.controlFile, "player ".toList ++ code ++ ": ".toList ++ e.msg⟩
    | .ok p => makePlayers W base l (put ps code p)
  | (_, _) :: _, _ => .error noneErr

/-- competitions.py:198-224 `initialise_from_control_file`: (description, players).  ValueErrors from load_settings become ControlFileErrors. -/
def toControl {α : Type} : Except Err α → Except Err α
  | .ok x => .ok x
  | .error e => .error (if e.kind = .value then ⟨.controlFile, e.msg⟩ else e)

/-- competitions.py:165-168 `global_settings`. -/
def globalSettings : List Setting := [
  { name := "description".toList, interpreter := sv (allowNone interpretUtf8Stripped) (optVal .str), default := some .none } ]

/-- competitions.py:209-212 -/
def playersSetting (W : World) : Setting :=
  { name := "players".toList, interpreter := sv (interpretMapOf W interpretIdentifier interpretPc) .configs }

def configsOf (d : List (Str × SVal)) (name : String) : Except Err (List (Str × Val)) :=
  match d.lookup name.toList with
  | some (.configs l) => .ok l
  | _ => .error noneErr

def initCompetition (W : World) (base : Option Str) (config : List (Str × Val)) : Except Err (Option Str × List (Str × Gtp.JobPlayer)) := do
  let globals ← toControl (loadSettings W config true false globalSettings [])
  let description ← optStrOf globals "description"
  let specials ← toControl (loadSettings W config true false [playersSetting W] [])
  let players ← makePlayers W base (← configsOf specials "players") []
  return (description, players)

end Gomill.Conf
