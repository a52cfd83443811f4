import Verif.Model.Settings
import Verif.Model.Playoff
import Verif.Spec.SgfCodec
import Mathlib.Data.List.Forall2
/-
What is meant by a setting's value, for C73 to C75.
-/
namespace Gomill.Conf.Spec
open Py

variable (W : World)

/-- What a value in a control file stands for: a Config_proxy stands for the object it makes. -/
inductive Stands : Val → Val → Prop
  | proxy {k v} : W.resolve k = .ok v → Stands (.proxy k) v
  | plain {v} : (∀ k, v ≠ .proxy k) → Stands v v

/-- The configuration has a value for this name. -/
def Has (config : List (Str × Val)) (name : Str) (v : Val) : Prop := ∃ u, config.lookup name = some u ∧ Stands W u v

/-- The value of a setting: the given one, interpreted, or (if they're being applied) the default. -/
inductive Gets (config : List (Str × Val)) (applyDefaults : Bool) (s : Setting) : SVal → Prop
  | given {v x} : Has W config s.name v → s.interpreter v = .ok x → Gets config applyDefaults s x
  | default {x} : config.lookup s.name = none → applyDefaults = true → s.default = some x → Gets config applyDefaults s x

/-- There is no value, and no default to use. -/
def Missing (config : List (Str × Val)) (applyDefaults : Bool) (s : Setting) : Prop :=
  config.lookup s.name = none ∧ ¬ (applyDefaults = true ∧ s.default.isSome = true)

/-- The value given is invalid: `m` says why. -/
inductive Invalid (config : List (Str × Val)) (s : Setting) (m : Str) : Prop
  | proxy {k} : config.lookup s.name = some (.proxy k) → W.resolve k = .error m → Invalid config s m
  | value {v} : Has W config s.name v → s.interpreter v = .error ⟨.value, m⟩ → Invalid config s m

/-- The value given makes the interpreter fail with some other exception. -/
def Fails (config : List (Str × Val)) (s : Setting) (e : Err) : Prop :=
  ∃ v, Has W config s.name v ∧ s.interpreter v = .error e ∧ e.kind ≠ .value

/-- An interpreter which doesn't raise KeyError. -/
def NoKeyError (s : Setting) : Prop := ∀ v e, s.interpreter v = .error e → e.kind ≠ .key

/-- A text: an 8-bit string, or a unicode string made of ASCII characters. -/
inductive Text : Val → Str → Prop
  | str {s} : Text (.str s) s
  | unicode {s} : (∀ c ∈ s, c.toNat < 128) → Text (.unicode s) s

/-- A text without NULs. -/
def CText (v : Val) (s : Str) : Prop := Text v s ∧ '\x00' ∉ s

/-- An identifier. -/
def Ident (s : Str) : Prop := s ≠ [] ∧ ∀ c ∈ s, ('a' ≤ c ∧ c ≤ 'z') ∨ ('A' ≤ c ∧ c ≤ 'Z') ∨ ('0' ≤ c ∧ c ≤ '9') ∨ c ∈ "-!$%&*+,.:;<=>?^_~".toList

/-- The value is a mapping, whose entries stand for these pairs (in order of key). -/
def Mapping {α : Type} (key : Val → Str → Prop) (value : Val → α → Prop) (v : Val) (r : List (Str × α)) : Prop :=
  ∃ l r', W.mapOf v = some l ∧ List.Forall₂ (fun (e : Val × Val) (x : Str × α) => key e.1 x.1 ∧ value e.2 x.2) l r' ∧
    r = r'.mergeSort (fun a b => decide (a.1 ≤ b.1))

/-- The arguments of a Quiet_config: the positional ones in order, then the keyword ones. -/
def argument (positional : List Str) (args : List Val) (kwargs : List (Str × Val)) (name : Str) : Option Val :=
  match (positional.zip args).lookup name with
  | some v => some v
  | none => kwargs.lookup name

/-- The arguments are acceptable. -/
structure GoodArguments (positional keyword : List Str) (args : List Val) (kwargs : List (Str × Val)) : Prop where
  enough : args.length ≤ positional.length
  known : ∀ e ∈ kwargs, e.1 ∈ positional ∨ e.1 ∈ keyword
  once : ∀ e ∈ kwargs, e.1 ∉ positional.take args.length

/-- The words of a command: a text, split at whitespace, or a list of strings. -/
inductive Words : Val → List Str → Prop
  | text {v s} : CText v s → Words v (Gtp.splitWs s)
  | list {v l ws} : (∀ s, v ≠ .str s) → (∀ s, v ≠ .unicode s) → W.listOf v = some l →
      List.Forall₂ (fun x (w : Str) => x = .str w ∨ x = .unicode w) l ws → Words v ws

/-- A startup command: at least one word, all of them well-formed. -/
def CommandOf (v : Val) (c : Str × List Str) : Prop :=
  Words W v (c.1 :: c.2) ∧ ∀ w ∈ c.1 :: c.2, Gtp.isWellFormedWord w = true

/-- A command line: a text, split by shlex, or a list of texts; not empty. -/
inductive CommandLine : Val → List Str → Prop
  | text {v s l} : CText v s → W.shlex s = .ok l → l ≠ [] → CommandLine v l
  | list {v l ss} : (∀ s, v ≠ .str s) → (∀ s, v ≠ .unicode s) → W.listOf v = some l → List.Forall₂ CText l ss → ss ≠ [] → CommandLine v ss

/-- A pathname in a control file is relative to the base directory, and can begin with `~`. -/
inductive Path (base : Option Str) (p : Str) : Str → Prop
  | absolute {q} : p ≠ [] → W.expandUser p = some q → q.head? = some '/' → Path base p q
  | inDir {q b} : p ≠ [] → W.expandUser p = some q → q.head? ≠ some '/' → base = some b → (b = [] ∨ b.getLast? = some '/') → Path base p (b ++ q)
  | relative {q b} : p ≠ [] → W.expandUser p = some q → q.head? ≠ some '/' → base = some b → b ≠ [] → b.getLast? ≠ some '/' → Path base p (b ++ '/' :: q)

/-- A true/false setting. -/
def Flag (arg : Str → Val → Prop) (given : Str → Prop) (name : String) (default b : Bool) : Prop :=
  (¬ given name.toList ∧ b = default) ∨ arg name.toList (.bool b)

/-- A player described by the arguments of `Player(...)` in a control file. -/
structure PlayerOf (base : Option Str) (code : Str) (arg : Str → Val → Prop) (given : Str → Prop) (p : Gtp.JobPlayer) : Prop where
  code : p.code = code
  command : ∃ v c l, arg "command".toList v ∧ CommandLine W v (c :: l) ∧
    (('/' ∉ c ∧ p.cmdArgs = c :: l) ∨ ('/' ∈ c ∧ ∃ c', Path W base c c' ∧ p.cmdArgs = c' :: l))
  cwd : ((¬ given "cwd".toList ∨ arg "cwd".toList .none) ∧ p.cwd = none) ∨ (∃ v s q, arg "cwd".toList v ∧ CText v s ∧ Path W base s q ∧ p.cwd = some q)
  environ : ((¬ given "environ".toList ∨ arg "environ".toList .none) ∧ p.environ = none) ∨
    (∃ v l, v ≠ .none ∧ arg "environ".toList v ∧ Mapping W CText CText v l ∧ p.environ = some l)
  isReliableScorer : Flag arg given "is_reliable_scorer" true p.isReliableScorer
  allowClaim : Flag arg given "allow_claim" false p.allowClaim
  discardStderr : Flag arg given "discard_stderr" false p.discardStderr
  nameFromGtp : Flag arg given "sgf_player_name_from_gtp" true p.nameFromGtp
  startup : (¬ given "startup_gtp_commands".toList ∧ p.startup = []) ∨
    (∃ v l, v ≠ .none ∧ arg "startup_gtp_commands".toList v ∧ W.listOf v = some l ∧ List.Forall₂ (CommandOf W) l p.startup)
  aliases : (¬ given "gtp_aliases".toList ∧ p.aliases = []) ∨
    (∃ v l, v ≠ .none ∧ arg "gtp_aliases".toList v ∧ Mapping W CText CText v l ∧ (∀ e ∈ l, Gtp.isWellFormedWord e.1 = true ∧ Gtp.isWellFormedWord e.2 = true) ∧
      ∀ k, p.aliases.lookup k = l.reverse.lookup k)

/-- Exactly these values are accepted, with these results; anything else is refused with a ValueError. -/
def Interprets {α : Type} (f : Val → Except Err α) (P : Val → α → Prop) : Prop :=
  (∀ v x, f v = .ok x ↔ P v x) ∧ ∀ v e, f v = .error e → e.kind = .value

/-- The ints. -/
inductive IsInt : Val → Int → Prop
  | int {n} : IsInt (.int n) n
  | false : IsInt (.bool false) 0
  | true : IsInt (.bool true) 1

/-- A number: an int, a long, True or False. -/
inductive IsWhole : Val → Int → Prop
  | int {v n} : IsInt v n → IsWhole v n
  | long {n} : IsWhole (.long n) n

/-- A string, which will be utf-8: an 8-bit string which already is, a unicode string, or None (for the empty string). -/
inductive Utf8Text : Val → Str → Prop
  | str {s} : Sgf.utf8Valid s = true → Utf8Text (.str s) s
  | unicode {u : Str} : Utf8Text (.unicode u) (u.flatMap (fun c => Sgf.utf8Bytes c.toNat))
  | none : Utf8Text .none []

end Gomill.Conf.Spec
