import Verif.Lemmas.Settings
import Verif.Props.SgfText
/-
C73: settings.
-/
namespace Gomill.Conf
open Py Spec

variable {W : World}

/-- C73: what load_settings returns, and which setting it complains about. (For settings with different names, whose interpreters don't raise KeyError.) -/
theorem C73_load_settings (W : World) (config : List (Str × Val)) (applyDefaults allowMissing : Bool) (settings : List Setting)
    (hn : (settings.map Setting.name).Nodup) (hk : ∀ s ∈ settings, NoKeyError s) :
    (∀ r, loadSettings W config applyDefaults allowMissing settings [] = .ok r →
      (∀ s ∈ settings, (∃ x, Gets W config applyDefaults s x ∧ r.lookup s.name = some x) ∨
        (Missing config applyDefaults s ∧ allowMissing = true ∧ r.lookup s.name = none)) ∧
      ∀ n, n ∉ settings.map Setting.name → r.lookup n = none) ∧
    (∀ e, loadSettings W config applyDefaults allowMissing settings [] = .error e →
      ∃ pre s post, settings = pre ++ s :: post ∧
        (∀ t ∈ pre, (∃ x, Gets W config applyDefaults t x) ∨ (Missing config applyDefaults t ∧ allowMissing = true)) ∧
        ((∃ m, Invalid W config s m ∧ e = ⟨.value, "'".toList ++ s.name ++ "': ".toList ++ m⟩) ∨
         (Missing config applyDefaults s ∧ allowMissing = false ∧ e = ⟨.value, "'".toList ++ s.name ++ "' not specified".toList⟩) ∨
         Fails W config s e)) :=
  loadSettings_spec applyDefaults allowMissing settings [] hn hk

theorem gets_unique {config : List (Str × Val)} {ad : Bool} {s : Setting} {x y : SVal} (h : Gets W config ad s x) (h' : Gets W config ad s y) : x = y := by
  cases h with
  | given h1 h2 => cases h' with
    | given h1' h2' => rw [has_unique h1' h1, h2] at h2'; cases h2'; rfl
    | default h1' _ _ => obtain ⟨u, hu, _⟩ := h1; rw [h1'] at hu; cases hu
  | default h1 h2 h3 => cases h' with
    | given h1' h2' => obtain ⟨u, hu, _⟩ := h1'; rw [h1] at hu; cases hu
    | default _ _ h3' => rw [h3] at h3'; cases h3'; rfl

theorem gets_not_missing {config : List (Str × Val)} {ad : Bool} {s : Setting} {x : SVal} (h : Gets W config ad s x) : ¬ Missing config ad s := by
  rintro ⟨h1, h2⟩
  cases h with
  | given h3 _ => obtain ⟨u, hu, _⟩ := h3; rw [h1] at hu; cases hu
  | default _ h3 h4 => exact h2 ⟨h3, by rw [h4]; rfl⟩

theorem gets_not_invalid {config : List (Str × Val)} {ad : Bool} {s : Setting} {x : SVal} (h : Gets W config ad s x) (m : Str) : ¬ Invalid W config s m := by
  intro h'
  cases h with
  | given h1 h2 =>
    cases h' with
    | proxy h3 h4 =>
      obtain ⟨u, hu, hs⟩ := h1
      rw [h3] at hu; cases hu
      cases hs with
      | proxy hs => rw [h4] at hs; cases hs
      | plain hs => exact hs _ rfl
    | value h3 h4 => rw [has_unique h3 h1, h2] at h4; cases h4
  | default h1 _ _ =>
    cases h' with
    | proxy h3 _ => rw [h1] at h3; cases h3
    | value h3 _ => obtain ⟨u, hu, _⟩ := h3; rw [h1] at hu; cases hu

theorem gets_not_fails {config : List (Str × Val)} {ad : Bool} {s : Setting} {x : SVal} (h : Gets W config ad s x) (e : Err) : ¬ Fails W config s e := by
  rintro ⟨v, h3, h4, _⟩
  cases h with
  | given h1 h2 => rw [has_unique h3 h1, h2] at h4; cases h4
  | default h1 _ _ => obtain ⟨u, hu, _⟩ := h3; rw [h1] at hu; cases hu

/-- C73: a setting has at most one value; if it has one, it is neither missing nor invalid. -/
theorem C73_exclusive (W : World) (config : List (Str × Val)) (applyDefaults : Bool) (s : Setting) (x : SVal) (h : Gets W config applyDefaults s x) :
    (∀ y, Gets W config applyDefaults s y → y = x) ∧ ¬ Missing config applyDefaults s ∧ (∀ m, ¬ Invalid W config s m) ∧ ∀ e, ¬ Fails W config s e :=
  ⟨fun _ hy => gets_unique hy h, gets_not_missing h, gets_not_invalid h, gets_not_fails h⟩

/-- If every setting has a value, or needn't have one, load_settings works. -/
theorem loadSettings_ok {config : List (Str × Val)} {ad am : Bool} {settings : List Setting} (hn : (settings.map Setting.name).Nodup) (hk : ∀ s ∈ settings, NoKeyError s)
    (h : ∀ s ∈ settings, (∃ x, Gets W config ad s x) ∨ (Missing config ad s ∧ am = true)) : ∃ r, loadSettings W config ad am settings [] = .ok r := by
  cases hl : loadSettings W config ad am settings [] with
  | ok r => exact ⟨r, rfl⟩
  | error e =>
    exfalso
    obtain ⟨pre, s, post, rfl, _, h3⟩ := (C73_load_settings W config ad am settings hn hk).2 e hl
    rcases h s (by simp) with ⟨x, hx⟩ | ⟨hm, ha⟩
    · rcases h3 with ⟨m, h3, _⟩ | ⟨h3, _⟩ | h3
      · exact gets_not_invalid hx m h3
      · exact gets_not_missing hx h3
      · exact gets_not_fails hx e h3
    · rcases h3 with ⟨m, h3, _⟩ | ⟨_, h3, _⟩ | ⟨v, ⟨u, hu, _⟩, _⟩
      · cases h3 with
        | proxy h3 _ => rw [hm.1] at h3; cases h3
        | value h3 _ => obtain ⟨u, hu, _⟩ := h3; rw [hm.1] at hu; cases hu
      · rw [ha] at h3; cases h3
      · rw [hm.1] at hu; cases hu

/-! ### resolve_arguments -/

theorem addKeywords_spec (allowed : List Str) : ∀ (kwargs d : List (Str × Val)), (kwargs.map Prod.fst).Nodup →
    (∀ r, addKeywords allowed kwargs d = .ok r → (∀ e ∈ kwargs, e.1 ∈ allowed ∧ e.1 ∉ d.map Prod.fst) ∧
      ∀ n, r.lookup n = (match d.lookup n with | some v => some v | none => kwargs.lookup n)) ∧
    (∀ e, addKeywords allowed kwargs d = .error e → e.kind = .value ∧ ∃ x ∈ kwargs, x.1 ∉ allowed ∨ x.1 ∈ d.map Prod.fst)
  | [], d, _ => by
    refine ⟨?_, (fun e h => nomatch h)⟩
    rintro r ⟨⟩
    refine ⟨(fun _ h => nomatch h), fun n => ?_⟩
    cases d.lookup n <;> rfl
  | (k, v) :: l, d, hn => by
    rw [List.map_cons, List.nodup_cons] at hn
    unfold addKeywords
    split
    · rename_i h1
      refine ⟨(fun r h => nomatch h), ?_⟩
      rintro e ⟨⟩
      exact ⟨rfl, _, List.mem_cons_self .., .inl h1⟩
    · rename_i h1
      split
      · rename_i h2
        refine ⟨(fun r h => nomatch h), ?_⟩
        rintro e ⟨⟩
        exact ⟨rfl, _, List.mem_cons_self .., .inr h2⟩
      · rename_i h2
        obtain ⟨n1, n2⟩ := addKeywords_spec allowed l (put d k v) hn.2
        have hne : ∀ e ∈ l, e.1 ≠ k := fun e he hk => hn.1 (List.mem_map.2 ⟨e, he, hk⟩)
        refine ⟨?_, ?_⟩
        · intro r hr
          obtain ⟨m1, m2⟩ := n1 r hr
          refine ⟨?_, ?_⟩
          · intro e he
            rcases List.mem_cons.1 he with rfl | he
            · exact ⟨Classical.not_not.1 h1, h2⟩
            · obtain ⟨ma, mb⟩ := m1 e he
              exact ⟨ma, fun hc => mb ((keys_put ..).2 (.inr hc))⟩
          · intro n
            rw [m2 n, lookup_put, List.lookup_cons]
            by_cases hnk : n = k
            · subst hnk
              rw [if_pos rfl, (lookup_none d n).2 h2]
              simp
            · rw [if_neg hnk]
              have : (n == k) = false := by simpa using hnk
              rw [this]
        · intro e he
          obtain ⟨m1, x, hx, m2⟩ := n2 e he
          refine ⟨m1, x, List.mem_cons_of_mem _ hx, m2.imp id (fun h => ?_)⟩
          rcases (keys_put ..).1 h with h | h
          · exact absurd h (hne x hx)
          · exact h

theorem keys_zip : ∀ (pos : List Str) (args : List Val), (pos.zip args).map Prod.fst = pos.take args.length
  | [], args => by simp
  | p :: pos, [] => by simp
  | p :: pos, a :: args => by simp [keys_zip pos args]

/-- C73: resolve_arguments accepts the arguments if there aren't too many positional ones, all the keyword ones are known, and nothing is given twice; the result has
exactly the arguments given.  Otherwise it raises ValueError. -/
theorem C73_resolve_arguments (positional keyword : List Str) (args : List Val) (kwargs : List (Str × Val)) (hn : (kwargs.map Prod.fst).Nodup) :
    (GoodArguments positional keyword args kwargs →
      ∃ r, resolveArguments positional keyword args kwargs = .ok r ∧ ∀ n, r.lookup n = argument positional args kwargs n) ∧
    (¬ GoodArguments positional keyword args kwargs → ∃ e, resolveArguments positional keyword args kwargs = .error e ∧ e.kind = .value) := by
  unfold resolveArguments
  by_cases hl : args.length > positional.length
  · rw [if_pos hl]
    refine ⟨fun h => ?_, fun _ => ⟨_, rfl, rfl⟩⟩
    have := h.enough
    omega
  · rw [if_neg hl]
    obtain ⟨h1, h2⟩ := addKeywords_spec (positional ++ keyword) kwargs (positional.zip args) hn
    rw [keys_zip] at h1 h2
    cases hr : addKeywords (positional ++ keyword) kwargs (positional.zip args) with
    | ok r =>
      obtain ⟨ha, hb⟩ := h1 r hr
      refine ⟨fun _ => ⟨r, rfl, fun n => hb n⟩, fun hc => absurd ⟨by omega, ?_, ?_⟩ hc⟩
      · intro e he; exact List.mem_append.1 (ha e he).1
      · intro e he; exact (ha e he).2
    | error e =>
      obtain ⟨ha, x, hx, hb⟩ := h2 e hr
      refine ⟨fun hc => ?_, fun _ => ⟨e, rfl, ha⟩⟩
      rcases hb with hb | hb
      · exact absurd (List.mem_append.2 (hc.known x hx)) hb
      · exact absurd hb (hc.once x hx)

/-! ### The interpreters -/

theorem interprets_utf8 : Interprets interpretUtf8 Utf8Text := by
  refine ⟨?_, ?_⟩
  · intro v s
    constructor
    · intro h
      unfold interpretUtf8 at h
      split at h
      · split at h
        · rename_i hv; cases h; exact .str hv
        · cases h
      · cases h; exact .unicode
      · cases h; exact .none
      · cases h
    · intro h
      cases h with
      | str h => exact if_pos h
      | unicode => rfl
      | none => rfl
  · intro v e h
    unfold interpretUtf8 at h
    split at h
    · split at h <;> cases h
      rfl
    · cases h
    · cases h
    · cases h; rfl

theorem interprets_utf8_stripped : Interprets interpretUtf8Stripped (fun v s => ∃ t, Utf8Text v t ∧ s = strip t) := by
  refine ⟨?_, ?_⟩
  · intro v s
    unfold interpretUtf8Stripped
    cases h : interpretUtf8 v with
    | error e =>
      constructor
      · intro h'; cases h'
      · rintro ⟨t, h1, _⟩; rw [(interprets_utf8.1 _ _).2 h1] at h; cases h
    | ok t =>
      constructor
      · rintro ⟨⟩; exact ⟨t, (interprets_utf8.1 _ _).1 h, rfl⟩
      · rintro ⟨t', h1, rfl⟩; rw [(interprets_utf8.1 _ _).2 h1] at h; cases h; rfl
  · intro v e h
    unfold interpretUtf8Stripped at h
    split at h
    · cases h
    · rename_i he; cases h; exact interprets_utf8.2 _ _ he

theorem utf8Text_valid {v : Val} {s : Str} (h : Utf8Text v s) : Sgf.utf8Valid s = true := by
  cases h with
  | str h => exact h
  | none => rfl
  | unicode =>
    rename_i u
    refine (Sgf.C19_utf8 _).2 ⟨u.map Char.toNat, ?_, ?_⟩
    · intro n hn
      obtain ⟨c, _, rfl⟩ := List.mem_map.1 hn
      have := c.valid
      rcases this with h | h
      · show c.val.toNat < _; omega
      · exact h.2
    · rw [List.flatMap_map]

theorem interprets_size : Interprets interpretBoardSize (fun v n => IsInt v n ∧ 2 ≤ n ∧ n ≤ 25) := by
  refine ⟨?_, ?_⟩
  · intro v n
    unfold interpretBoardSize
    cases h : interpretInt v with
    | error e =>
      constructor
      · intro h'; cases h'
      · rintro ⟨h1, _⟩; rw [(interprets_int.1 _ _).2 h1] at h; cases h
    | ok i =>
      have hi := (interprets_int.1 _ _).1 h
      simp only
      constructor
      · intro h'
        split at h'
        · cases h'
        · split at h' <;> cases h'
          exact ⟨hi, by omega, by omega⟩
      · rintro ⟨h1, h2, h3⟩
        rw [(interprets_int.1 _ _).2 h1] at h
        cases h
        rw [if_neg (by omega), if_neg (by omega)]
  · intro v e h
    unfold interpretBoardSize at h
    split at h
    · rename_i he; cases h; exact interprets_int.2 _ _ he
    · split at h
      · cases h; rfl
      · split at h <;> cases h
        rfl

theorem interprets_float (v : Val) (x : Num) : interpretFloat W v = .ok x ↔ v = .float x ∨ ∃ n, IsWhole v n ∧ W.floatOf n = some x := by
  have conv : ∀ n, interpretFloat.conv W n = .ok x ↔ W.floatOf n = some x := by
    intro n
    unfold interpretFloat.conv
    cases W.floatOf n with
    | none => exact ⟨(fun h => nomatch h), (fun h => nomatch h)⟩
    | some y => exact ⟨fun h => by cases h; rfl, fun h => by cases h; rfl⟩
  have whole : ∀ m, (∀ n, IsWhole v n ↔ n = m) → ((∃ n, IsWhole v n ∧ W.floatOf n = some x) ↔ W.floatOf m = some x) := by
    intro m hm
    constructor
    · rintro ⟨n, h1, h2⟩; rw [(hm n).1 h1] at h2; exact h2
    · intro h; exact ⟨m, (hm m).2 rfl, h⟩
  cases v
  case float y =>
    constructor
    · rintro ⟨⟩; exact .inl rfl
    · rintro (h | ⟨n, h, _⟩)
      · cases h; rfl
      · cases h with | int h => cases h
  case int n =>
    rw [show interpretFloat W (.int n) = interpretFloat.conv W n from rfl, conv, whole n]
    · simp
    · intro k
      constructor
      · intro h; cases h with | int h => cases h; rfl
      · rintro rfl; exact .int .int
  case long n =>
    rw [show interpretFloat W (.long n) = interpretFloat.conv W n from rfl, conv, whole n]
    · simp
    · intro k
      constructor
      · intro h; cases h with
        | int h => cases h
        | long => rfl
      · rintro rfl; exact .long
  case bool b =>
    rw [show interpretFloat W (.bool b) = interpretFloat.conv W (if b then 1 else 0) from rfl, conv, whole (if b then 1 else 0)]
    · simp
    · intro k
      constructor
      · intro h; cases h with | int h => cases h <;> rfl
      · rintro rfl; cases b
        · exact .int .false
        · exact .int .true
  all_goals
    constructor
    · intro h; cases h
    · rintro (h | ⟨n, h, _⟩)
      · cases h
      · cases h with | int h => cases h

/-- C73: what the interpreters accept.  `Interprets f P`: `f` returns `x` for the value `v` exactly when `P v x`, and otherwise raises ValueError. -/
theorem C73_interpreters (W : World) :
    Interprets interpretBool (fun v b => v = .bool b) ∧
    Interprets interpretInt IsInt ∧
    Interprets interpretPositiveInt (fun v n => IsInt v n ∧ 0 < n) ∧
    Interprets interpretBoardSize (fun v n => IsInt v n ∧ 2 ≤ n ∧ n ≤ 25) ∧
    (∀ v x, interpretFloat W v = .ok x ↔ v = .float x ∨ ∃ n, IsWhole v n ∧ W.floatOf n = some x) ∧
    Interprets interpret8bit CText ∧
    Interprets interpretUtf8 Utf8Text ∧ (∀ v s, Utf8Text v s → Sgf.utf8Valid s = true) ∧
    Interprets interpretIdentifier (fun v s => Text v s ∧ Ident s) ∧
    (∀ l, Interprets (interpretEnum l) (fun v s => s ∈ l ∧ (v = .str s ∨ v = .unicode s))) ∧
    Interprets (interpretSequence W) (fun v l => W.listOf v = some l) ∧
    Interprets (interpretShlex W) (CommandLine W) ∧
    (∀ (α : Type) (f : Val → Except Err α) (P : Val → α → Prop), Interprets f P →
      Interprets (allowNone f) (fun v x => (v = .none ∧ x = none) ∨ (v ≠ .none ∧ ∃ y, P v y ∧ x = some y))) ∧
    (∀ (α : Type) (key : Val → Except Err Str) (value : Val → Except Err α) (K : Val → Str → Prop) (V : Val → α → Prop),
      Interprets key K → Interprets value V → Interprets (interpretMapOf W key value) (Mapping W K V)) :=
  ⟨interprets_bool, interprets_int, interprets_positive, interprets_size, interprets_float, interprets_8bit, interprets_utf8, fun _ _ => utf8Text_valid,
   interprets_identifier, interprets_enum, interprets_sequence, interprets_shlex, fun _ _ _ => interprets_none, fun _ _ _ _ _ => interprets_map⟩

/-- A world for the example: `proxy 0` makes 19, and `proxy 1` fails. -/
def plainWorld : World where
  listOf _ := none
  mapOf _ := none
  resolve k := if k = 0 then .ok (.int 19) else .error "no such thing".toList
  floatOf n := some (.fin n)
  shlex s := .ok [s]
  showVal _ := .ok []
  expandUser s := some s

/-- `Setting('size', interpret_int)` and `Setting('rules', allow_none(interpret_8bit_string), default=None)` -/
def exampleSettings : List Setting := [
  { name := "size".toList, interpreter := sv interpretInt .int },
  { name := "rules".toList, interpreter := sv (allowNone interpret8bit) (optVal .str), default := some .none } ]

/-- A setting whose interpreter raises KeyError. -/
def keySetting : Setting := { name := "key".toList, interpreter := fun _ => .error ⟨.key, "x".toList⟩ }

/-- The values which are integers, strings and None, or the message. -/
def settingsView (x : Except Err (List (Str × SVal))) : List (Str × Str) :=
  match x with
  | .ok l => l.map (fun e => (e.1, match e.2 with | .none => "None".toList | .int n => strInt n | .str s => s | _ => "?".toList))
  | .error e => [("error".toList, e.msg)]

/-- C73: hypotheses met, and concrete results. The last part shows why C73_load_settings is about interpreters which don't raise KeyError: load_settings would say that the
setting isn't specified. -/
theorem C73_witness :
    (exampleSettings.map Setting.name).Nodup ∧ (∀ s ∈ exampleSettings, NoKeyError s) ∧
    settingsView (loadSettings plainWorld [("size".toList, .proxy 0), ("other".toList, .int 1)] true false exampleSettings []) =
      [("size".toList, "19".toList), ("rules".toList, "None".toList)] ∧
    settingsView (loadSettings plainWorld [("rules".toList, .unicode "x".toList)] false true exampleSettings []) = [("rules".toList, "x".toList)] ∧
    settingsView (loadSettings plainWorld [("rules".toList, .unicode "x".toList)] true false exampleSettings []) = [("error".toList, "'size' not specified".toList)] ∧
    settingsView (loadSettings plainWorld [("size".toList, .proxy 1)] true true exampleSettings []) = [("error".toList, "'size': no such thing".toList)] ∧
    settingsView (loadSettings plainWorld [("size".toList, .long 19)] true true exampleSettings []) = [("error".toList, "'size': invalid integer".toList)] ∧
    settingsView (loadSettings plainWorld [("key".toList, .int 1)] true false [keySetting] []) = [("error".toList, "'key' not specified".toList)] ∧
    GoodArguments ["command".toList] ["cwd".toList] [.int 1] [("cwd".toList, .none)] ∧
    ¬ GoodArguments ["command".toList] ["cwd".toList] [.int 1] [("command".toList, .none)] := by
  refine ⟨by decide +kernel, ?_, by decide +kernel, by decide +kernel, by decide +kernel, by decide +kernel, by decide +kernel, by decide +kernel, ?_, ?_⟩
  · intro s hs
    rcases List.mem_cons.1 hs with rfl | hs
    · exact sv_noKey interprets_int
    · rcases List.mem_cons.1 hs with rfl | hs
      · exact sv_noKey (interprets_none interprets_8bit)
      · cases hs
  · refine ⟨Nat.le_refl _, ?_, ?_⟩
    · intro e he; rw [List.mem_singleton.1 he]; exact .inr (List.mem_singleton.2 rfl)
    · intro e he; rw [List.mem_singleton.1 he]; decide
  · intro h
    exact h.once _ (List.mem_singleton.2 rfl) (by decide)

/-! ### Messages -/

/-- A character which can be displayed: not one of the control characters of ASCII or Latin-1. -/
def Displayed (c : Char) : Prop := 0x20 ≤ c.toNat ∧ (c.toNat ≤ 0x7e ∨ 0xa0 ≤ c.toNat)

theorem clean_spec (s : Str) :
    (cleanString s).length = s.length ∧ ∀ k (hk : k < s.length), ∃ c, (cleanString s)[k]? = some c ∧ Displayed c ∧ ((Displayed s[k] ∧ c = s[k]) ∨ (¬ Displayed s[k] ∧ c = '?')) := by
  unfold cleanString
  refine ⟨List.length_map .., ?_⟩
  intro k hk
  refine ⟨_, by rw [List.getElem?_map, List.getElem?_eq_getElem hk]; rfl, ?_⟩
  simp only
  by_cases h : s[k].toNat < 0x20 ∨ (0x7f ≤ s[k].toNat ∧ s[k].toNat ≤ 0x9f)
  · rw [if_pos h]
    refine ⟨by unfold Displayed; decide, .inr ⟨?_, rfl⟩⟩
    unfold Displayed
    omega
  · rw [if_neg h]
    have : Displayed s[k] := by unfold Displayed; omega
    exact ⟨this, .inl ⟨this, rfl⟩⟩

theorem clean_displayed {s : Str} {c : Char} (h : c ∈ cleanString s) : Displayed c := by
  obtain ⟨k, hk, rfl⟩ := List.mem_iff_getElem.1 h
  have hk' : k < s.length := by rw [← (clean_spec s).1]; exact hk
  obtain ⟨d, h1, h2, _⟩ := (clean_spec s).2 k hk'
  rw [List.getElem?_eq_getElem hk] at h1
  cases h1
  exact h2

/-- C73: in the messages about bad identifiers and bad commands in `gtp_aliases`, control characters have been replaced by question marks; other characters are left as they are. -/
theorem C73_messages :
    (∀ s : Str, (cleanString s).length = s.length ∧
      ∀ k (hk : k < s.length), ∃ c, (cleanString s)[k]? = some c ∧ ((Displayed s[k] ∧ c = s[k]) ∨ (¬ Displayed s[k] ∧ c = '?'))) ∧
    (∀ v e, interpretIdentifier v = .error e → ∀ c ∈ e.msg, Displayed c) ∧
    (∀ l d e, gtpAliases l d = .error e → ∀ c ∈ e.msg, Displayed c) := by
  have plain : ∀ t : String, (∀ c ∈ t.toList, Displayed c) → ∀ s, ∀ c ∈ t.toList ++ cleanString s, Displayed c := by
    intro t ht s c hc
    rcases List.mem_append.1 hc with h | h
    · exact ht c h
    · exact clean_displayed h
  have d1 : ∀ c ∈ "contains forbidden character: ".toList, Displayed c := by unfold Displayed; decide +kernel
  have d2 : ∀ c ∈ "'gtp_aliases': invalid command ".toList, Displayed c := by unfold Displayed; decide +kernel
  have d3 : ∀ c ∈ "empty string".toList, Displayed c := by unfold Displayed; decide +kernel
  have d4 : ∀ c ∈ "not a string".toList, Displayed c := by unfold Displayed; decide +kernel
  have check : ∀ s e, checkIdentifier s = .error e → ∀ c ∈ e.msg, Displayed c := by
    intro s e h
    unfold checkIdentifier at h
    split at h
    · cases h; exact d3
    · split at h
      · cases h
      · cases h; exact plain _ d1 s
  refine ⟨?_, ?_, ?_⟩
  · intro s
    refine ⟨(clean_spec s).1, fun k hk => ?_⟩
    obtain ⟨c, h1, _, h2⟩ := (clean_spec s).2 k hk
    exact ⟨c, h1, h2⟩
  · intro v e h
    unfold interpretIdentifier at h
    split at h
    · split at h
      · exact check _ _ h
      · cases h; exact plain _ d1 _
    · exact check _ _ h
    · cases h; exact d4
  · intro l
    induction l with
    | nil => intro d e h; cases h
    | cons x l ih =>
      intro d e h
      obtain ⟨a, b⟩ := x
      unfold gtpAliases at h
      split at h
      · cases h; exact plain _ d2 a
      · split at h
        · cases h; exact plain _ d2 b
        · exact ih _ _ h

end Gomill.Conf
