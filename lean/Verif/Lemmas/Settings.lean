import Verif.Spec.Settings
import Verif.Lemmas.Text
/-
Lemmas for C73 to C75: dicts, load_settings and the interpreters.
-/
namespace Gomill.Conf
open Py

variable {α : Type}

/-! ### Dicts -/

theorem lookup_filter_ne (d : List (Str × α)) (k n : Str) (h : n ≠ k) : (d.filter (fun e => e.1 ≠ k)).lookup n = d.lookup n := by
  induction d with
  | nil => rfl
  | cons e d ih =>
    by_cases he : e.1 = k
    · rw [List.filter_cons_of_neg (by simpa using he), ih, List.lookup_cons]
      have : (n == e.1) = false := by simpa [he] using h
      rw [this]
    · rw [List.filter_cons_of_pos (by simpa using he), List.lookup_cons, List.lookup_cons, ih]

theorem lookup_filter_self (d : List (Str × α)) (k : Str) : (d.filter (fun e => e.1 ≠ k)).lookup k = none := by
  rw [List.lookup_eq_none_iff]
  intro e he
  have := (List.mem_filter.1 he).2
  simp only [ne_eq, decide_not, Bool.not_eq_eq_eq_not, Bool.not_true, decide_eq_false_iff_not] at this
  simpa using fun h => this h.symm

theorem lookup_put (d : List (Str × α)) (k : Str) (v : α) (n : Str) : (put d k v).lookup n = if n = k then some v else d.lookup n := by
  unfold put
  rw [List.lookup_append]
  by_cases h : n = k
  · subst h
    rw [lookup_filter_self, if_pos rfl]
    simp
  · rw [lookup_filter_ne d k n h, if_neg h]
    have : (n == k) = false := by simpa using h
    simp [List.lookup_cons, this]

theorem keys_put (d : List (Str × α)) (k : Str) (v : α) (n : Str) : n ∈ (put d k v).map Prod.fst ↔ n = k ∨ n ∈ d.map Prod.fst := by
  unfold put
  simp only [List.map_append, List.map_cons, List.map_nil, List.mem_append, List.mem_singleton, List.mem_map, List.mem_filter]
  constructor
  · rintro (⟨e, ⟨h1, _⟩, rfl⟩ | h)
    · exact .inr ⟨e, h1, rfl⟩
    · exact .inl h
  · rintro (h | ⟨e, h1, rfl⟩)
    · exact .inr h
    · by_cases hk : e.1 = k
      · exact .inr hk
      · exact .inl ⟨e, ⟨h1, by simpa using hk⟩, rfl⟩

theorem nodup_put (d : List (Str × α)) (k : Str) (v : α) (h : (d.map Prod.fst).Nodup) : ((put d k v).map Prod.fst).Nodup := by
  unfold put
  rw [List.map_append, List.nodup_append]
  refine ⟨?_, by simp, ?_⟩
  · exact h.sublist (List.filter_sublist.map _)
  · intro a ha b hb
    simp only [List.map_cons, List.map_nil, List.mem_singleton] at hb
    subst hb
    rintro rfl
    obtain ⟨e, he, rfl⟩ := List.mem_map.1 ha
    simpa using (List.mem_filter.1 he).2

theorem lookup_isSome (d : List (Str × α)) (n : Str) : d.lookup n ≠ none ↔ n ∈ d.map Prod.fst := by
  constructor
  · intro h
    apply Classical.byContradiction
    intro hc
    apply h
    rw [List.lookup_eq_none_iff]
    intro e he
    have : n ≠ e.1 := fun h => hc (h ▸ List.mem_map_of_mem he)
    simpa using this
  · intro h hc
    obtain ⟨e, he, rfl⟩ := List.mem_map.1 h
    have := List.lookup_eq_none_iff.1 hc e he
    simp at this

theorem lookup_none (d : List (Str × α)) (n : Str) : d.lookup n = none ↔ n ∉ d.map Prod.fst := by
  rw [← lookup_isSome, ne_eq, Classical.not_not]

theorem lookup_mem {d : List (Str × α)} {n : Str} {v : α} (h : d.lookup n = some v) : (n, v) ∈ d := by
  induction d with
  | nil => cases h
  | cons e d ih =>
    rw [List.lookup_cons] at h
    split at h
    · rename_i hb
      cases h
      rw [eq_of_beq hb]
      exact List.mem_cons_self ..
    · exact List.mem_cons_of_mem _ (ih h)

theorem lookup_of_mem {d : List (Str × α)} (hn : (d.map Prod.fst).Nodup) {n : Str} {v : α} (h : (n, v) ∈ d) : d.lookup n = some v := by
  induction d with
  | nil => cases h
  | cons e d ih =>
    rw [List.map_cons, List.nodup_cons] at hn
    rw [List.lookup_cons]
    rcases List.mem_cons.1 h with h | h
    · subst h; simp
    · have : (n == e.1) = false := by
        have : n ≠ e.1 := fun he => hn.1 (he ▸ List.mem_map_of_mem (f := Prod.fst) (a := (n, v)) h)
        simpa using this
      rw [this]
      exact ih hn.2 h

/-! ### load_settings -/

open Spec

variable {W : World} {config : List (Str × Val)} {s : Setting}

theorem resolveProxy_ok {name : Str} {u v : Val} : resolveProxy W name u = .ok v ↔ Stands W u v := by
  constructor
  · intro h
    unfold resolveProxy at h
    split at h
    · split at h
      · rename_i hr; cases h; exact .proxy hr
      · cases h
    · rename_i hp; cases h; exact .plain (fun k hk => hp k hk)
  · intro h
    cases h with
    | proxy h => unfold resolveProxy; simp only [h]
    | plain h =>
      unfold resolveProxy
      split
      · rename_i k; exact absurd rfl (h k)
      · rfl

theorem resolveProxy_error {name : Str} {u : Val} {e : Err} : resolveProxy W name u = .error e ↔ ∃ k m, u = .proxy k ∧ W.resolve k = .error m ∧ e = ⟨.value, inSetting name m⟩ := by
  unfold resolveProxy
  constructor
  · intro h
    split at h
    · split at h
      · cases h
      · rename_i k _ m hr; cases h; exact ⟨k, m, rfl, hr, rfl⟩
    · cases h
  · rintro ⟨k, m, rfl, h, rfl⟩
    simp only [h]

theorem stands_unique {u v v' : Val} (h : Stands W u v) (h' : Stands W u v') : v = v' := by
  cases h with
  | proxy h => cases h' with
    | proxy h' => rw [h] at h'; cases h'; rfl
    | plain h' => exact absurd rfl (h' _)
  | plain h => cases h' with
    | proxy h' => exact absurd rfl (h _)
    | plain h' => rfl

theorem has_unique {name : Str} {v v' : Val} (h : Has W config name v) (h' : Has W config name v') : v = v' := by
  obtain ⟨u, h1, h2⟩ := h
  obtain ⟨u', h1', h2'⟩ := h'
  rw [h1] at h1'
  cases h1'
  exact stands_unique h2 h2'

/-- One setting. -/
theorem load_cases (hk : NoKeyError s) (ad am : Bool) :
    (∃ x, Gets W config ad s x ∧ s.load W config ad am = .ok (some x)) ∨
    (Missing config ad s ∧ ((am = true ∧ s.load W config ad am = .ok none) ∨
      (am = false ∧ s.load W config ad am = .error ⟨.value, '\'' :: s.name ++ "' not specified".toList⟩))) ∨
    (∃ m, Invalid W config s m ∧ s.load W config ad am = .error ⟨.value, inSetting s.name m⟩) ∨
    (∃ e, Fails W config s e ∧ s.load W config ad am = .error e) := by
  unfold Setting.load Setting.given
  cases hl : config.lookup s.name with
  | none =>
    simp only [if_true]
    unfold Setting.fallback
    cases ad with
    | false =>
      simp only [Bool.false_eq_true, if_false]
      refine .inr (.inl ⟨⟨hl, by simp⟩, ?_⟩)
      cases am <;> simp
    | true =>
      simp only [if_true]
      cases hd : s.default with
      | none =>
        refine .inr (.inl ⟨⟨hl, by simp [hd]⟩, ?_⟩)
        cases am <;> simp
      | some x => exact .inl ⟨x, .default hl rfl hd, rfl⟩
  | some u =>
    simp only
    cases hr : resolveProxy W s.name u with
    | error e =>
      obtain ⟨k, m, rfl, h1, rfl⟩ := resolveProxy_error.1 hr
      exact .inr (.inr (.inl ⟨m, .proxy hl h1, by simp⟩))
    | ok v =>
      have hh : Has W config s.name v := ⟨u, hl, resolveProxy_ok.1 hr⟩
      simp only [Setting.interpret]
      cases hi : s.interpreter v with
      | ok x => exact .inl ⟨x, .given hh hi, rfl⟩
      | error e =>
        obtain ⟨kind, m⟩ := e
        by_cases he : kind = .value
        · subst he
          exact .inr (.inr (.inl ⟨m, .value hh hi, by simp⟩))
        · have hk' := hk v _ hi
          exact .inr (.inr (.inr ⟨_, ⟨v, hh, hi, he⟩, by simp [he, hk']⟩))

/-- The loop. -/
theorem loadSettings_spec (ad am : Bool) : ∀ (settings : List Setting) (d : List (Str × SVal)), (settings.map Setting.name).Nodup → (∀ s ∈ settings, NoKeyError s) →
    (∀ r, loadSettings W config ad am settings d = .ok r →
      (∀ s ∈ settings, (∃ x, Gets W config ad s x ∧ r.lookup s.name = some x) ∨ (Missing config ad s ∧ am = true ∧ r.lookup s.name = d.lookup s.name)) ∧
      ∀ n, n ∉ settings.map Setting.name → r.lookup n = d.lookup n) ∧
    (∀ e, loadSettings W config ad am settings d = .error e →
      ∃ pre s post, settings = pre ++ s :: post ∧ (∀ t ∈ pre, (∃ x, Gets W config ad t x) ∨ (Missing config ad t ∧ am = true)) ∧
        ((∃ m, Invalid W config s m ∧ e = ⟨.value, inSetting s.name m⟩) ∨
         (Missing config ad s ∧ am = false ∧ e = ⟨.value, '\'' :: s.name ++ "' not specified".toList⟩) ∨ Fails W config s e))
  | [], d, _, _ => by
    refine ⟨?_, ?_⟩
    · intro r h; cases h; exact ⟨(fun _ h => nomatch h), fun _ _ => rfl⟩
    · intro e h; cases h
  | s :: ss, d, hn, hk => by
    rw [List.map_cons, List.nodup_cons] at hn
    have next := fun d' => loadSettings_spec ad am ss d' hn.2 (fun t ht => hk t (List.mem_cons_of_mem _ ht))
    have hne : ∀ t ∈ ss, t.name ≠ s.name := fun t ht he => hn.1 (he ▸ List.mem_map_of_mem ht)
    unfold loadSettings
    rcases load_cases (W := W) (config := config) (hk s (List.mem_cons_self ..)) ad am with ⟨x, h1, h2⟩ | ⟨h1, ⟨h3, h2⟩ | ⟨h3, h2⟩⟩ | ⟨m, h1, h2⟩ | ⟨e, h1, h2⟩
    · simp only [h2]
      obtain ⟨n1, n2⟩ := next (put d s.name x)
      refine ⟨?_, ?_⟩
      · intro r hr
        obtain ⟨m1, m2⟩ := n1 r hr
        refine ⟨?_, ?_⟩
        · intro t ht
          rcases List.mem_cons.1 ht with rfl | ht
          · left
            refine ⟨x, h1, ?_⟩
            rw [m2 _ hn.1, lookup_put, if_pos rfl]
          · rcases m1 t ht with h | ⟨h, ha, hb⟩
            · exact .inl h
            · right
              refine ⟨h, ha, ?_⟩
              rw [hb, lookup_put, if_neg (hne t ht)]
        · intro n hn'
          rw [List.map_cons, List.mem_cons, not_or] at hn'
          rw [m2 n hn'.2, lookup_put, if_neg hn'.1]
      · intro e he
        obtain ⟨pre, t, post, p1, p2, p3⟩ := n2 e he
        refine ⟨s :: pre, t, post, by rw [p1]; rfl, ?_, p3⟩
        intro t ht
        rcases List.mem_cons.1 ht with rfl | ht
        · exact .inl ⟨x, h1⟩
        · exact p2 t ht
    · simp only [h2]
      obtain ⟨n1, n2⟩ := next d
      refine ⟨?_, ?_⟩
      · intro r hr
        obtain ⟨m1, m2⟩ := n1 r hr
        refine ⟨?_, ?_⟩
        · intro t ht
          rcases List.mem_cons.1 ht with rfl | ht
          · exact .inr ⟨h1, h3, m2 _ hn.1⟩
          · exact m1 t ht
        · intro n hn'
          rw [List.map_cons, List.mem_cons, not_or] at hn'
          exact m2 n hn'.2
      · intro e he
        obtain ⟨pre, t, post, p1, p2, p3⟩ := n2 e he
        refine ⟨s :: pre, t, post, by rw [p1]; rfl, ?_, p3⟩
        intro t ht
        rcases List.mem_cons.1 ht with rfl | ht
        · exact .inr ⟨h1, h3⟩
        · exact p2 t ht
    · simp only [h2]
      refine ⟨(fun r h => nomatch h), ?_⟩
      rintro e ⟨⟩
      exact ⟨[], s, ss, rfl, (fun _ h => nomatch h), .inr (.inl ⟨h1, h3, rfl⟩)⟩
    · simp only [h2]
      refine ⟨(fun r h => nomatch h), ?_⟩
      rintro e ⟨⟩
      exact ⟨[], s, ss, rfl, (fun _ h => nomatch h), .inl ⟨m, h1, rfl⟩⟩
    · simp only [h2]
      refine ⟨(fun r h => nomatch h), ?_⟩
      rintro e' ⟨⟩
      exact ⟨[], s, ss, rfl, (fun _ h => nomatch h), .inr (.inr h1)⟩

/-! ### The interpreters -/

theorem interprets_bool : Interprets interpretBool (fun v b => v = .bool b) := by
  refine ⟨?_, ?_⟩ <;> intro v x <;> cases v <;> simp [interpretBool, Err.value]
  all_goals rintro rfl; rfl

theorem interprets_int : Interprets interpretInt IsInt := by
  refine ⟨?_, ?_⟩
  · intro v x
    constructor
    · intro h
      cases v <;> simp only [interpretInt] at h <;> try (cases h; done)
      · rename_i b; cases b <;> cases h <;> constructor
      · cases h; constructor
    · intro h; cases h <;> rfl
  · intro v e h
    cases v <;> simp only [interpretInt] at h <;> cases h <;> rfl

theorem interprets_positive : Interprets interpretPositiveInt (fun v n => IsInt v n ∧ 0 < n) := by
  refine ⟨?_, ?_⟩
  · intro v x
    unfold interpretPositiveInt
    cases h : interpretInt v with
    | error e =>
      constructor
      · intro h'; cases h'
      · rintro ⟨h1, _⟩; rw [(interprets_int.1 v x).2 h1] at h; cases h
    | ok n =>
      simp only
      constructor
      · intro h'
        split at h'
        · cases h'
        · cases h'; exact ⟨(interprets_int.1 v _).1 h, by omega⟩
      · rintro ⟨h1, h2⟩
        rw [(interprets_int.1 v x).2 h1] at h
        cases h
        rw [if_neg (by omega)]
  · intro v e
    unfold interpretPositiveInt
    cases h : interpretInt v with
    | error e' => rintro ⟨⟩; exact interprets_int.2 v _ h
    | ok n =>
      simp only
      split
      · rintro ⟨⟩; rfl
      · intro h; cases h

theorem isAscii_iff (s : Str) : isAscii s = true ↔ ∀ c ∈ s, c.toNat < 128 := by
  unfold isAscii; simp

theorem refuseNul_ok (s t : Str) : refuseNul s = .ok t ↔ s = t ∧ '\x00' ∉ s := by
  unfold refuseNul
  split
  · rename_i h; constructor
    · intro h'; cases h'
    · rintro ⟨_, h'⟩; exact absurd h h'
  · rename_i h; constructor
    · intro h'; cases h'; exact ⟨rfl, h⟩
    · rintro ⟨rfl, _⟩; rfl

theorem refuseNul_error {s : Str} {e : Err} (h : refuseNul s = .error e) : e.kind = .value := by
  unfold refuseNul at h
  split at h <;> cases h
  rfl

theorem interprets_8bit : Interprets interpret8bit CText := by
  refine ⟨?_, ?_⟩
  · intro v t
    constructor
    · intro h
      unfold interpret8bit at h
      split at h
      · obtain ⟨rfl, h'⟩ := (refuseNul_ok _ _).1 h; exact ⟨.str, h'⟩
      · split at h
        · rename_i ha
          obtain ⟨rfl, h'⟩ := (refuseNul_ok _ _).1 h; exact ⟨.unicode ((isAscii_iff _).1 ha), h'⟩
        · cases h
      · cases h
    · rintro ⟨h1, h2⟩
      cases h1 with
      | str => exact (refuseNul_ok _ _).2 ⟨rfl, h2⟩
      | unicode ha =>
        show (if isAscii t then refuseNul t else _) = _
        rw [if_pos ((isAscii_iff _).2 ha)]
        exact (refuseNul_ok _ _).2 ⟨rfl, h2⟩
  · intro v e h
    unfold interpret8bit at h
    split at h
    · exact refuseNul_error h
    · split at h
      · exact refuseNul_error h
      · cases h; rfl
    · cases h; rfl

theorem isIdentChar_iff (c : Char) : Tourn.isIdentChar c = true ↔
    ('a' ≤ c ∧ c ≤ 'z') ∨ ('A' ≤ c ∧ c ≤ 'Z') ∨ ('0' ≤ c ∧ c ≤ '9') ∨ c ∈ "-!$%&*+,.:;<=>?^_~".toList := by
  unfold Tourn.isIdentChar Char.isAlphanum Char.isAlpha Char.isUpper Char.isLower Char.isDigit
  simp only [Bool.or_eq_true, Bool.and_eq_true, decide_eq_true_eq, List.contains_iff_mem]
  simp only [Char.le_def, ge_iff_le, show 'a'.val = 97 from rfl, show 'z'.val = 122 from rfl, show 'A'.val = 65 from rfl, show 'Z'.val = 90 from rfl,
    show '0'.val = 48 from rfl, show '9'.val = 57 from rfl]
  tauto

theorem checkIdentifier_ok (s t : Str) : checkIdentifier s = .ok t ↔ s = t ∧ Ident s := by
  unfold checkIdentifier Ident
  split
  · rename_i h; constructor
    · intro h'; cases h'
    · rintro ⟨_, h', _⟩; exact absurd h h'
  · rename_i h
    split
    · rename_i ha
      constructor
      · rintro ⟨⟩; exact ⟨rfl, h, fun c hc => (isIdentChar_iff c).1 (List.all_eq_true.1 ha c hc)⟩
      · rintro ⟨rfl, _⟩; rfl
    · rename_i ha
      constructor
      · intro h'; cases h'
      · rintro ⟨rfl, _, hc⟩; exact absurd (List.all_eq_true.2 (fun c h => (isIdentChar_iff c).2 (hc c h))) ha

theorem checkIdentifier_error {s : Str} {e : Err} (h : checkIdentifier s = .error e) : e.kind = .value := by
  unfold checkIdentifier at h
  split at h
  · cases h; rfl
  · split at h <;> cases h
    rfl

theorem interprets_identifier : Interprets interpretIdentifier (fun v s => Text v s ∧ Ident s) := by
  refine ⟨?_, ?_⟩
  · intro v t
    constructor
    · intro h
      unfold interpretIdentifier at h
      split at h
      · split at h
        · rename_i ha
          obtain ⟨rfl, h'⟩ := (checkIdentifier_ok _ _).1 h; exact ⟨.unicode ((isAscii_iff _).1 ha), h'⟩
        · cases h
      · obtain ⟨rfl, h'⟩ := (checkIdentifier_ok _ _).1 h; exact ⟨.str, h'⟩
      · cases h
    · rintro ⟨h1, h2⟩
      cases h1 with
      | str => exact (checkIdentifier_ok _ _).2 ⟨rfl, h2⟩
      | unicode ha =>
        unfold interpretIdentifier
        simp only [if_pos ((isAscii_iff _).2 ha)]
        exact (checkIdentifier_ok _ _).2 ⟨rfl, h2⟩
  · intro v e h
    unfold interpretIdentifier at h
    split at h
    · split at h
      · exact checkIdentifier_error h
      · cases h; rfl
    · exact checkIdentifier_error h
    · cases h; rfl

theorem interprets_enum (l : List Str) : Interprets (interpretEnum l) (fun v s => s ∈ l ∧ (v = .str s ∨ v = .unicode s)) := by
  refine ⟨?_, ?_⟩
  · intro v t
    cases v <;> simp only [interpretEnum]
    case str s =>
      split
      · rename_i h; constructor
        · rintro ⟨⟩; exact ⟨h, .inl rfl⟩
        · rintro ⟨_, h' | h'⟩ <;> cases h'; rfl
      · rename_i h; constructor
        · intro h'; cases h'
        · rintro ⟨h1, h' | h'⟩ <;> cases h'; exact absurd h1 h
    case unicode s =>
      split
      · rename_i h; constructor
        · rintro ⟨⟩; exact ⟨h, .inr rfl⟩
        · rintro ⟨_, h' | h'⟩ <;> cases h'; rfl
      · rename_i h; constructor
        · intro h'; cases h'
        · rintro ⟨h1, h' | h'⟩ <;> cases h'; exact absurd h1 h
    all_goals
      constructor
      · intro h; cases h
      · rintro ⟨_, h | h⟩ <;> cases h
  · intro v e h
    cases v <;> simp only [interpretEnum] at h
    case str s => split at h <;> cases h; rfl
    case unicode s => split at h <;> cases h; rfl
    all_goals cases h; rfl

theorem interprets_sequence : Interprets (interpretSequence W) (fun v l => W.listOf v = some l) := by
  refine ⟨?_, ?_⟩ <;> intro v x <;> unfold interpretSequence
  · show _ ↔ W.listOf v = some x
    cases W.listOf v with
    | none => exact ⟨(fun h => nomatch h), (fun h => nomatch h)⟩
    | some l => exact ⟨fun h => by cases h; rfl, fun h => by cases h; rfl⟩
  · cases W.listOf v with
    | none => rintro ⟨⟩; rfl
    | some l => intro h; cases h

theorem interprets_none {f : Val → Except Err α} {P : Val → α → Prop} (h : Interprets f P) :
    Interprets (allowNone f) (fun v x => (v = .none ∧ x = none) ∨ (v ≠ .none ∧ ∃ y, P v y ∧ x = some y)) := by
  have key : ∀ v, v ≠ .none → allowNone f v = (match f v with | .ok x => .ok (some x) | .error e => .error e) := by
    intro v hv; cases v <;> first | exact absurd rfl hv | rfl
  refine ⟨?_, ?_⟩
  · intro v x
    by_cases hv : v = .none
    · subst hv
      constructor
      · intro h'; cases h'; exact .inl ⟨rfl, rfl⟩
      · rintro (⟨_, rfl⟩ | ⟨h', _⟩)
        · rfl
        · exact absurd rfl h'
    · rw [key v hv]
      constructor
      · intro h'
        split at h'
        · rename_i y hy; cases h'; exact .inr ⟨hv, y, (h.1 v y).1 hy, rfl⟩
        · cases h'
      · rintro (⟨h', _⟩ | ⟨_, y, hy, rfl⟩)
        · exact absurd h' hv
        · rw [(h.1 v y).2 hy]
  · intro v e
    by_cases hv : v = .none
    · subst hv; intro h'; cases h'
    · rw [key v hv]
      intro h'
      split at h'
      · cases h'
      · rename_i hy; cases h'; exact h.2 v _ hy

theorem interpretEntries_ok {key : Val → Except Err Str} {value : Val → Except Err α} {K : Val → Str → Prop} {V : Val → α → Prop} (hk : Interprets key K)
    (hv : Interprets value V) : ∀ (l : List (Val × Val)) (r : List (Str × α)),
    interpretEntries key value l = .ok r ↔ List.Forall₂ (fun (e : Val × Val) (x : Str × α) => K e.1 x.1 ∧ V e.2 x.2) l r
  | [], r => by
    rw [List.forall₂_nil_left_iff]
    unfold interpretEntries
    constructor
    · rintro ⟨⟩; rfl
    · rintro rfl; rfl
  | (a, b) :: l, r => by
    unfold interpretEntries
    cases ha : key a with
    | error e =>
      constructor
      · intro h; cases h
      · intro h; cases h with
        | cons h _ => rw [(hk.1 _ _).2 h.1] at ha; cases ha
    | ok k =>
      simp only
      cases hb : value b with
      | error e =>
        constructor
        · intro h; cases h
        · intro h; cases h with
          | cons h _ => rw [(hv.1 _ _).2 h.2] at hb; cases hb
      | ok x =>
        simp only
        cases hr : interpretEntries key value l with
        | error e =>
          constructor
          · intro h; cases h
          · intro h; cases h with
            | cons _ h => rw [(interpretEntries_ok hk hv l _).2 h] at hr; cases hr
        | ok r' =>
          simp only
          constructor
          · rintro ⟨⟩
            exact .cons ⟨(hk.1 _ _).1 ha, (hv.1 _ _).1 hb⟩ ((interpretEntries_ok hk hv l _).1 hr)
          · intro h; cases h with
            | cons h1 h2 =>
              rw [(interpretEntries_ok hk hv l _).2 h2] at hr
              cases hr
              rw [(hk.1 _ _).2 h1.1] at ha
              rw [(hv.1 _ _).2 h1.2] at hb
              cases ha; cases hb
              rfl

theorem interpretEntries_error {key : Val → Except Err Str} {value : Val → Except Err α} {K : Val → Str → Prop} {V : Val → α → Prop} (hk : Interprets key K)
    (hv : Interprets value V) : ∀ (l : List (Val × Val)) (e : Err), interpretEntries key value l = .error e → e.kind = .value
  | [], e, h => by cases h
  | (a, b) :: l, e, h => by
    unfold interpretEntries at h
    split at h
    · rename_i e' ha
      rw [if_pos (hk.2 _ _ ha)] at h
      cases h; rfl
    · split at h
      · rename_i e' hb
        rw [if_pos (hv.2 _ _ hb)] at h
        cases h; rfl
      · split at h
        · rename_i e' hr
          cases h
          exact interpretEntries_error hk hv l _ hr
        · cases h

/-- Sorting by key. -/
theorem sorted_entries (r : List (Str × α)) :
    (r.mergeSort (fun a b => decide (a.1 ≤ b.1))).Perm r ∧ (r.mergeSort (fun a b => decide (a.1 ≤ b.1))).Pairwise (fun a b => a.1 ≤ b.1) := by
  refine ⟨List.mergeSort_perm .., ?_⟩
  have := List.pairwise_mergeSort (le := fun (a b : Str × α) => decide (a.1 ≤ b.1))
    (fun a b c h1 h2 => by simp only [decide_eq_true_eq] at h1 h2 ⊢; exact List.le_trans h1 h2)
    (fun a b => by simp only [Bool.or_eq_true, decide_eq_true_eq]; exact List.le_total a.1 b.1) r
  exact this.imp (fun h => by simpa using h)

theorem insertKey_split (a : Str × α) : ∀ (l₁ l₂ : List (Str × α)), (∀ b ∈ l₁, ¬ a.1 ≤ b.1) → (∀ b ∈ l₂, a.1 ≤ b.1) → insertKey a (l₁ ++ l₂) = l₁ ++ a :: l₂
  | [], [], _, _ => rfl
  | [], y :: l, _, h => by
    show (if a.1 ≤ y.1 then a :: y :: l else y :: insertKey a l) = _
    rw [if_pos (h y (List.mem_cons_self ..))]
    rfl
  | y :: l₁, l₂, h, h' => by
    show (if a.1 ≤ y.1 then a :: y :: (l₁ ++ l₂) else y :: insertKey a (l₁ ++ l₂)) = _
    rw [if_neg (h y (List.mem_cons_self ..)), insertKey_split a l₁ l₂ (fun b hb => h b (List.mem_cons_of_mem _ hb)) h']
    rfl

/-- Both ways of sorting give the same list. -/
theorem sortByKey_eq : ∀ r : List (Str × α), sortByKey r = r.mergeSort (fun a b => decide (a.1 ≤ b.1))
  | [] => by simp [sortByKey]
  | a :: r => by
    show insertKey a (sortByKey r) = _
    rw [sortByKey_eq r]
    obtain ⟨l₁, l₂, h1, h2, h3⟩ := List.mergeSort_cons (le := fun (a b : Str × α) => decide (a.1 ≤ b.1))
      (fun a b c h1 h2 => by simp only [decide_eq_true_eq] at h1 h2 ⊢; exact List.le_trans h1 h2)
      (fun a b => by simp only [Bool.or_eq_true, decide_eq_true_eq]; exact List.le_total a.1 b.1) a r
    have hs := (sorted_entries (a :: r)).2
    rw [h1] at hs
    rw [h1, h2]
    refine insertKey_split a l₁ l₂ (fun b hb => by simpa using h3 b hb) ?_
    have := (List.pairwise_append.1 hs).2.1
    exact (List.pairwise_cons.1 this).1

theorem interprets_map {key : Val → Except Err Str} {value : Val → Except Err α} {K : Val → Str → Prop} {V : Val → α → Prop} (hk : Interprets key K)
    (hv : Interprets value V) : Interprets (interpretMapOf W key value) (Mapping W K V) := by
  refine ⟨?_, ?_⟩
  · intro v r
    unfold interpretMapOf Mapping
    simp only [sortByKey_eq]
    cases hm : W.mapOf v with
    | none =>
      constructor
      · intro h; cases h
      · rintro ⟨l, r', h, _⟩; cases h
    | some l =>
      simp only
      cases he : interpretEntries key value l with
      | error e =>
        constructor
        · intro h; cases h
        · rintro ⟨l', r', h1, h2, _⟩
          cases h1
          rw [(interpretEntries_ok hk hv _ _).2 h2] at he
          cases he
      | ok r' =>
        simp only
        constructor
        · rintro ⟨⟩
          exact ⟨l, r', rfl, (interpretEntries_ok hk hv _ _).1 he, rfl⟩
        · rintro ⟨l', r'', h1, h2, rfl⟩
          cases h1
          rw [(interpretEntries_ok hk hv _ _).2 h2] at he
          cases he
          rfl
  · intro v e h
    unfold interpretMapOf at h
    split at h
    · cases h; rfl
    · split at h
      · rename_i he; cases h; exact interpretEntries_error hk hv _ _ he
      · cases h

theorem interpretStrings_ok : ∀ (l : List Val) (ss : List Str), interpretStrings l = .ok ss ↔ List.Forall₂ CText l ss
  | [], ss => by
    rw [List.forall₂_nil_left_iff]
    unfold interpretStrings
    exact ⟨fun h => by cases h; rfl, fun h => by cases h; rfl⟩
  | v :: l, ss => by
    unfold interpretStrings
    cases hv : interpret8bit v with
    | error e =>
      constructor
      · intro h; cases h
      · intro h; cases h with
        | cons h _ => rw [(interprets_8bit.1 _ _).2 h] at hv; cases hv
    | ok s =>
      simp only
      cases hr : interpretStrings l with
      | error e =>
        constructor
        · intro h; cases h
        · intro h; cases h with
          | cons _ h => rw [(interpretStrings_ok l _).2 h] at hr; cases hr
      | ok r =>
        simp only
        constructor
        · rintro ⟨⟩
          exact .cons ((interprets_8bit.1 _ _).1 hv) ((interpretStrings_ok l _).1 hr)
        · intro h; cases h with
          | cons h1 h2 =>
            rw [(interpretStrings_ok l _).2 h2] at hr
            rw [(interprets_8bit.1 _ _).2 h1] at hv
            cases hr; cases hv; rfl

theorem interpretStrings_error : ∀ (l : List Val) (e : Err), interpretStrings l = .error e → e.kind = .value
  | [], e, h => by cases h
  | v :: l, e, h => by
    unfold interpretStrings at h
    split at h
    · rename_i he
      rw [if_pos (interprets_8bit.2 _ _ he)] at h
      cases h; rfl
    · split at h
      · rename_i he; cases h; exact interpretStrings_error l _ he
      · cases h

theorem not_string_or (v : Val) : (∃ s, v = .str s) ∨ (∃ s, v = .unicode s) ∨ ((∀ s, v ≠ .str s) ∧ ∀ s, v ≠ .unicode s) := by
  cases v <;> first | exact .inl ⟨_, rfl⟩ | exact .inr (.inl ⟨_, rfl⟩) | exact .inr (.inr ⟨(fun _ h => nomatch h), (fun _ h => nomatch h)⟩)

theorem shlexList_string {v : Val} (h : (∃ s, v = .str s) ∨ ∃ s, v = .unicode s) : shlexList W v = shlexList.ofString W v := by
  rcases h with ⟨s, rfl⟩ | ⟨s, rfl⟩ <;> rfl

theorem shlexList_list {v : Val} (h1 : ∀ s, v ≠ .str s) (h2 : ∀ s, v ≠ .unicode s) :
    shlexList W v = (match W.listOf v with | none => .error (.value "not a string or a sequence") | some l => interpretStrings l) := by
  cases v <;> first | exact absurd rfl (h1 _) | exact absurd rfl (h2 _) | rfl

theorem text_string {v : Val} {s : Str} (h : Text v s) : (∃ s, v = .str s) ∨ ∃ s, v = .unicode s := by
  cases h with
  | str => exact .inl ⟨_, rfl⟩
  | unicode _ => exact .inr ⟨_, rfl⟩

theorem ofString_ok (v : Val) (l : List Str) : shlexList.ofString W v = .ok l ↔ ∃ s, CText v s ∧ W.shlex s = .ok l := by
  unfold shlexList.ofString
  cases hv : interpret8bit v with
  | error e =>
    constructor
    · intro h; cases h
    · rintro ⟨s, h, _⟩; rw [(interprets_8bit.1 _ _).2 h] at hv; cases hv
  | ok s =>
    simp only
    cases hs : W.shlex s with
    | error m =>
      constructor
      · intro h; cases h
      · rintro ⟨s', h, h'⟩; rw [(interprets_8bit.1 _ _).2 h] at hv; cases hv; rw [hs] at h'; cases h'
    | ok l' =>
      constructor
      · rintro ⟨⟩; exact ⟨s, (interprets_8bit.1 _ _).1 hv, hs⟩
      · rintro ⟨s', h, h'⟩; rw [(interprets_8bit.1 _ _).2 h] at hv; cases hv; rw [hs] at h'; cases h'; rfl

theorem interprets_shlex : Interprets (interpretShlex W) (CommandLine W) := by
  have hcons : ∀ v r, interpretShlex W v = .ok r ↔ shlexList W v = .ok r ∧ r ≠ [] := by
    intro v r
    unfold interpretShlex
    cases h : shlexList W v with
    | error e => exact ⟨(fun h => nomatch h), (fun h => nomatch h)⟩
    | ok l => cases l with
      | nil =>
        constructor
        · intro h; cases h
        · rintro ⟨⟨⟩, h⟩; exact absurd rfl h
      | cons a l =>
        constructor
        · rintro ⟨⟩; exact ⟨rfl, List.cons_ne_nil _ _⟩
        · rintro ⟨⟨⟩, h⟩; rfl
  refine ⟨?_, ?_⟩
  · intro v r
    rw [hcons]
    constructor
    · rintro ⟨h, hne⟩
      rcases not_string_or v with hs | hs | ⟨h1, h2⟩
      · rw [shlexList_string (.inl hs)] at h
        obtain ⟨s, ha, hb⟩ := (ofString_ok _ _).1 h
        exact .text ha hb hne
      · rw [shlexList_string (.inr hs)] at h
        obtain ⟨s, ha, hb⟩ := (ofString_ok _ _).1 h
        exact .text ha hb hne
      · rw [shlexList_list h1 h2] at h
        cases hl : W.listOf v with
        | none => rw [hl] at h; cases h
        | some l => rw [hl] at h; exact .list h1 h2 hl ((interpretStrings_ok _ _).1 h) hne
    · intro h
      cases h with
      | text ha hb hne => exact ⟨by rw [shlexList_string (text_string ha.1)]; exact (ofString_ok _ _).2 ⟨_, ha, hb⟩, hne⟩
      | list h1 h2 hl hf hne => exact ⟨by rw [shlexList_list h1 h2, hl]; exact (interpretStrings_ok _ _).2 hf, hne⟩
  · intro v e h
    have key : ∀ e, shlexList W v = .error e → e.kind = .value := by
      intro e h
      have ofs : ∀ e, shlexList.ofString W v = .error e → e.kind = .value := by
        intro e h
        unfold shlexList.ofString at h
        split at h
        · rename_i he; cases h; exact interprets_8bit.2 _ _ he
        · split at h <;> cases h
          rfl
      rcases not_string_or v with hs | hs | ⟨h1, h2⟩
      · rw [shlexList_string (.inl hs)] at h; exact ofs e h
      · rw [shlexList_string (.inr hs)] at h; exact ofs e h
      · rw [shlexList_list h1 h2] at h
        cases hl : W.listOf v with
        | none => rw [hl] at h; cases h; rfl
        | some l => rw [hl] at h; exact interpretStrings_error _ _ h
    unfold interpretShlex at h
    split at h
    · rename_i he; cases h; exact key _ he
    · cases h; rfl
    · cases h

theorem interprets_pc : Interprets interpretPc (fun v x => x = v ∧ ∃ args kwargs, v = .quiet "Player".toList args kwargs) := by
  refine ⟨?_, ?_⟩
  · intro v x
    constructor
    · intro h
      unfold interpretPc at h
      split at h
      · split at h
        · rename_i hc; cases h; exact ⟨rfl, _, _, by rw [hc]⟩
        · cases h
      · cases h
    · rintro ⟨rfl, args, kwargs, rfl⟩
      unfold interpretPc
      simp only [if_true]
  · intro v e h
    unfold interpretPc at h
    split at h
    · split at h <;> cases h
      rfl
    · cases h; rfl

/-! ### Settings with these interpreters -/

theorem sv_ok {f : Val → Except Err α} {P : Val → α → Prop} (h : Interprets f P) {g : α → SVal} {v : Val} {x : SVal} :
    sv f g v = .ok x ↔ ∃ y, P v y ∧ x = g y := by
  unfold sv
  cases hf : f v with
  | error e =>
    constructor
    · intro h'; cases h'
    · rintro ⟨y, hy, _⟩; rw [(h.1 v y).2 hy] at hf; cases hf
  | ok y =>
    constructor
    · rintro ⟨⟩; exact ⟨y, (h.1 v y).1 hf, rfl⟩
    · rintro ⟨y', hy, rfl⟩; rw [(h.1 v y').2 hy] at hf; cases hf; rfl

theorem sv_error {f : Val → Except Err α} {P : Val → α → Prop} (h : Interprets f P) {g : α → SVal} {v : Val} {e : Err} (he : sv f g v = .error e) : e.kind = .value := by
  unfold sv at he
  split at he
  · cases he
  · rename_i hf; cases he; exact h.2 v _ hf

theorem sv_noKey {f : Val → Except Err α} {P : Val → α → Prop} (h : Interprets f P) {g : α → SVal} {name : Str} {d : Option SVal} :
    NoKeyError { name := name, interpreter := sv f g, default := d } := by
  intro v e he
  have := sv_error h he
  rw [this]
  exact (fun h => nomatch h)

end Gomill.Conf
