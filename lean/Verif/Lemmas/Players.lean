import Verif.Props.Settings
/-
Lemmas for C74: players from a control file.
-/
namespace Gomill.Conf
open Py Spec

variable {W : World} {α β : Type}

theorem bind_ok {x : Except Err α} {f : α → Except Err β} {y : β} : (x >>= f) = .ok y ↔ ∃ a, x = .ok a ∧ f a = .ok y := by
  cases x with
  | error e => exact ⟨(fun h => nomatch h), (fun ⟨a, h, _⟩ => nomatch h)⟩
  | ok a => exact ⟨fun h => ⟨a, rfl, h⟩, fun ⟨b, h, h'⟩ => by cases h; exact h'⟩

theorem gets_sv {f : Val → Except Err α} {P : Val → α → Prop} (h : Interprets f P) {g : α → SVal} {name : Str} {d : Option SVal} {config : List (Str × Val)} {x : SVal} :
    Gets W config true { name := name, interpreter := sv f g, default := d } x ↔
      (∃ v y, Has W config name v ∧ P v y ∧ x = g y) ∨ (config.lookup name = none ∧ d = some x) := by
  constructor
  · intro hx
    cases hx with
    | given h1 h2 =>
      obtain ⟨y, hy, rfl⟩ := (sv_ok h).1 h2
      exact .inl ⟨_, y, h1, hy, rfl⟩
    | default h1 _ h2 => exact .inr ⟨h1, h2⟩
  · rintro (⟨v, y, h1, h2, rfl⟩ | ⟨h1, h2⟩)
    · exact .given h1 ((sv_ok h).2 ⟨y, h2, rfl⟩)
    · exact .default h1 rfl h2

/-! ### Pathnames -/

theorem pathJoin_spec {base : Option Str} {p q r : Str} (hp : p ≠ []) (he : W.expandUser p = some q) : pathJoin base q = some r ↔ Path W base p r := by
  unfold pathJoin
  constructor
  · intro h
    split at h
    · rename_i hh; cases h; exact .absolute hp he hh
    · rename_i hh
      split at h
      · cases h
      · split at h
        · rename_i hb; cases h; exact .inDir hp he hh rfl hb
        · rename_i hb; cases h; rw [not_or] at hb; exact .relative hp he hh rfl hb.1 hb.2
  · intro h
    cases h with
    | absolute _ he' hh => rw [he] at he'; cases he'; rw [if_pos hh]
    | inDir _ he' hh hb hc =>
      rw [he] at he'; cases he'
      rw [if_neg hh, hb]; simp only [if_pos hc]
    | relative _ he' hh hb hc hd =>
      rw [he] at he'; cases he'
      rw [if_neg hh, hb]; simp only [if_neg (not_or.2 ⟨hc, hd⟩)]

theorem resolvePathname_some {base : Option Str} {p r : Str} : resolvePathname W base (some p) = .ok (some r) ↔ Path W base p r := by
  unfold resolvePathname
  simp only
  constructor
  · intro h
    split at h
    · cases h
    · rename_i hp
      split at h
      · cases h
      · rename_i q he
        split at h
        · cases h
        · rename_i hj; cases h; exact (pathJoin_spec hp he).1 hj
  · intro h
    have hp : p ≠ [] := by cases h <;> assumption
    have he : ∃ q, W.expandUser p = some q := by cases h <;> exact ⟨_, by assumption⟩
    obtain ⟨q, he⟩ := he
    rw [if_neg hp, he]
    simp only
    rw [(pathJoin_spec hp he).2 h]

theorem resolvePathname_ne_none {base : Option Str} {p : Str} : resolvePathname W base (some p) ≠ .ok none := by
  unfold resolvePathname
  simp only
  intro h
  split at h
  · cases h
  · split at h
    · cases h
    · split at h <;> cases h

theorem resolvePathname_error {base : Option Str} {p : Option Str} {e : Err} (h : resolvePathname W base p = .error e) : e.kind = .value := by
  unfold resolvePathname at h
  split at h
  · cases h
  · split at h
    · cases h; rfl
    · split at h
      · cases h; rfl
      · split at h <;> cases h
        rfl

theorem commandLine_ok {base : Option Str} {c : Str} {l r : List Str} : commandLine W base (c :: l) = .ok r ↔
    ('/' ∉ c ∧ r = c :: l) ∨ ('/' ∈ c ∧ ∃ c', Path W base c c' ∧ r = c' :: l) := by
  unfold commandLine
  simp only
  by_cases hc : '/' ∈ c
  · rw [if_pos hc]
    constructor
    · intro h
      split at h
      · cases h
      · cases h
      · rename_i c' hp; cases h; exact .inr ⟨hc, c', resolvePathname_some.1 hp, rfl⟩
    · rintro (⟨h, _⟩ | ⟨_, c', hp, rfl⟩)
      · exact absurd hc h
      · rw [resolvePathname_some.2 hp]
  · rw [if_neg hc]
    constructor
    · rintro ⟨⟩; exact .inl ⟨hc, rfl⟩
    · rintro (⟨_, rfl⟩ | ⟨h, _⟩)
      · rfl
      · exact absurd h hc

theorem resolveCwd_ok {base : Option Str} {p r : Option Str} : resolveCwd W base p = .ok r ↔ (p = none ∧ r = none) ∨ (∃ s q, p = some s ∧ Path W base s q ∧ r = some q) := by
  unfold resolveCwd
  cases p with
  | none =>
    rw [show resolvePathname W base none = .ok none from rfl]
    constructor
    · rintro ⟨⟩; exact .inl ⟨rfl, rfl⟩
    · rintro (⟨_, rfl⟩ | ⟨s, q, h, _⟩)
      · rfl
      · cases h
  | some s =>
    cases hr : resolvePathname W base (some s) with
    | error e =>
      constructor
      · intro h; cases h
      · rintro (⟨h, _⟩ | ⟨s', q, ⟨⟩, h, _⟩)
        · cases h
        · rw [resolvePathname_some.2 h] at hr; cases hr
    | ok x =>
      cases x with
      | none => exact absurd hr resolvePathname_ne_none
      | some q =>
        constructor
        · rintro ⟨⟩; exact .inr ⟨s, q, rfl, resolvePathname_some.1 hr, rfl⟩
        · rintro (⟨h, _⟩ | ⟨s', q', ⟨⟩, h, rfl⟩)
          · cases h
          · rw [resolvePathname_some.2 h] at hr; cases hr; rfl

/-! ### Startup commands -/

theorem mapM_wordOf : ∀ (l : List Val) (ws : List Str), l.mapM wordOf = some ws ↔ List.Forall₂ (fun x (w : Str) => x = .str w ∨ x = .unicode w) l ws
  | [], ws => by
    rw [List.forall₂_nil_left_iff, List.mapM_nil]
    exact ⟨fun h => by cases h; rfl, fun h => by cases h; rfl⟩
  | v :: l, ws => by
    have hw : ∀ w, wordOf v = some w ↔ v = .str w ∨ v = .unicode w := by
      intro w
      cases v <;> simp [wordOf]
    rw [List.mapM_cons]
    constructor
    · intro h
      rw [Option.bind_eq_bind, Option.bind_eq_some_iff] at h
      obtain ⟨w, h1, h⟩ := h
      rw [Option.bind_eq_bind, Option.bind_eq_some_iff] at h
      obtain ⟨r, h2, h⟩ := h
      cases h
      exact .cons ((hw w).1 h1) ((mapM_wordOf l r).1 h2)
    · intro h
      cases h with
      | cons h1 h2 =>
        rw [(hw _).2 h1, (mapM_wordOf l _).2 h2]
        rfl

theorem checked_iff (ws r : List Str) : commandWords.checked ws = some r ↔ ws = r ∧ ∀ w ∈ ws, Gtp.isWellFormedWord w = true := by
  unfold commandWords.checked
  split
  · rename_i h
    rw [List.all_eq_true] at h
    exact ⟨fun h' => by cases h'; exact ⟨rfl, h⟩, fun ⟨h', _⟩ => by rw [h']⟩
  · rename_i h
    constructor
    · intro h'; cases h'
    · rintro ⟨_, h'⟩; exact absurd (List.all_eq_true.2 h') h

theorem commandWords_string {v : Val} (h : (∃ s, v = .str s) ∨ ∃ s, v = .unicode s) : commandWords W v = commandWords.ofString v := by
  rcases h with ⟨s, rfl⟩ | ⟨s, rfl⟩ <;> rfl

theorem commandWords_list {v : Val} (h1 : ∀ s, v ≠ .str s) (h2 : ∀ s, v ≠ .unicode s) {l : List Val} (hl : W.listOf v = some l) :
    commandWords W v = (l.mapM wordOf).bind commandWords.checked := by
  have : commandWords W v = (match W.listOf v with | none => none | some l => match l.mapM wordOf with | none => none | some ws => commandWords.checked ws) := by
    cases v <;> first | exact absurd rfl (h1 _) | exact absurd rfl (h2 _) | rfl
  rw [this, hl]
  simp only
  cases l.mapM wordOf <;> rfl

theorem commandWords_none {v : Val} (h1 : ∀ s, v ≠ .str s) (h2 : ∀ s, v ≠ .unicode s) (hl : W.listOf v = none) : commandWords W v = none := by
  have : commandWords W v = (match W.listOf v with | none => none | some l => match l.mapM wordOf with | none => none | some ws => commandWords.checked ws) := by
    cases v <;> first | exact absurd rfl (h1 _) | exact absurd rfl (h2 _) | rfl
  rw [this, hl]

theorem commandWords_iff (v : Val) (ws : List Str) : commandWords W v = some ws ↔ Words W v ws ∧ ∀ w ∈ ws, Gtp.isWellFormedWord w = true := by
  have str : ((∃ s, v = .str s) ∨ ∃ s, v = .unicode s) → (commandWords W v = some ws ↔ ∃ s, CText v s ∧ ws = Gtp.splitWs s ∧ ∀ w ∈ ws, Gtp.isWellFormedWord w = true) := by
    intro hs
    rw [commandWords_string hs]
    unfold commandWords.ofString
    cases hi : interpret8bit v with
    | error e =>
      constructor
      · intro h; cases h
      · rintro ⟨s, h, _⟩; rw [(interprets_8bit.1 _ _).2 h] at hi; cases hi
    | ok s =>
      simp only
      rw [checked_iff]
      constructor
      · rintro ⟨rfl, h⟩; exact ⟨s, (interprets_8bit.1 _ _).1 hi, rfl, h⟩
      · rintro ⟨s', h, rfl, hw⟩
        rw [(interprets_8bit.1 _ _).2 h] at hi
        cases hi
        exact ⟨rfl, hw⟩
  constructor
  · intro h
    rcases not_string_or v with hs | hs | ⟨h1, h2⟩
    · obtain ⟨s, ha, rfl, hb⟩ := (str (.inl hs)).1 h; exact ⟨.text ha, hb⟩
    · obtain ⟨s, ha, rfl, hb⟩ := (str (.inr hs)).1 h; exact ⟨.text ha, hb⟩
    · cases hl : W.listOf v with
      | none => rw [commandWords_none h1 h2 hl] at h; cases h
      | some l =>
        rw [commandWords_list h1 h2 hl, Option.bind_eq_some_iff] at h
        obtain ⟨ws', ha, hb⟩ := h
        obtain ⟨rfl, hb'⟩ := (checked_iff _ _).1 hb
        exact ⟨.list h1 h2 hl ((mapM_wordOf _ _).1 ha), hb'⟩
  · rintro ⟨h, hw⟩
    cases h with
    | text ha => exact (str (text_string ha.1)).2 ⟨_, ha, rfl, hw⟩
    | list h1 h2 hl hf =>
      rw [commandWords_list h1 h2 hl, (mapM_wordOf _ _).2 hf]
      exact (checked_iff _ _).2 ⟨rfl, hw⟩

theorem startupCommands_ok : ∀ (l : List Val) (r : List (Str × List Str)), startupCommands W l = .ok r ↔ List.Forall₂ (CommandOf W) l r
  | [], r => by
    rw [List.forall₂_nil_left_iff]
    unfold startupCommands
    exact ⟨fun h => by cases h; rfl, fun h => by cases h; rfl⟩
  | v :: l, r => by
    unfold startupCommands
    constructor
    · intro h
      split at h
      · split at h <;> cases h
      · cases h
      · rename_i w ws hw
        split at h
        · cases h
        · rename_i r' hr
          cases h
          exact .cons ((commandWords_iff _ _).1 hw) ((startupCommands_ok l r').1 hr)
    · intro h
      cases h with
      | cons h1 h2 =>
        rw [(commandWords_iff _ _).2 h1]
        simp only
        rw [(startupCommands_ok l _).2 h2]

/-! ### Aliases -/

theorem gtpAliases_spec : ∀ (l d : List (Str × Str)),
    (∀ r, gtpAliases l d = .ok r → (∀ e ∈ l, Gtp.isWellFormedWord e.1 = true ∧ Gtp.isWellFormedWord e.2 = true) ∧
      (∀ k, r.lookup k = (match l.reverse.lookup k with | some v => some v | none => d.lookup k)) ∧ ∀ e ∈ r, e ∈ l ∨ e ∈ d) ∧
    (∀ e, gtpAliases l d = .error e → e.kind = .controlFile ∧ ∃ x ∈ l, ¬ (Gtp.isWellFormedWord x.1 = true ∧ Gtp.isWellFormedWord x.2 = true))
  | [], d => by
    refine ⟨?_, (fun e h => nomatch h)⟩
    rintro r ⟨⟩
    exact ⟨(fun _ h => nomatch h), fun _ => rfl, fun e he => .inr he⟩
  | (a, b) :: l, d => by
    unfold gtpAliases
    split
    · rename_i h1
      refine ⟨(fun r h => nomatch h), ?_⟩
      rintro e ⟨⟩
      refine ⟨rfl, (a, b), List.mem_cons_self .., ?_⟩
      rintro ⟨h, _⟩
      rw [show Gtp.isWellFormedWord a = true from h] at h1
      cases h1
    · rename_i h1
      split
      · rename_i h2
        refine ⟨(fun r h => nomatch h), ?_⟩
        rintro e ⟨⟩
        refine ⟨rfl, (a, b), List.mem_cons_self .., ?_⟩
        rintro ⟨_, h⟩
        rw [show Gtp.isWellFormedWord b = true from h] at h2
        cases h2
      · rename_i h2
        obtain ⟨n1, n2⟩ := gtpAliases_spec l (put d a b)
        refine ⟨?_, ?_⟩
        · intro r hr
          obtain ⟨m1, m2, m3⟩ := n1 r hr
          refine ⟨?_, ?_, ?_⟩
          · intro e he
            rcases List.mem_cons.1 he with rfl | he
            · exact ⟨by simpa using h1, by simpa using h2⟩
            · exact m1 e he
          · intro k
            rw [m2 k, List.reverse_cons, List.lookup_append, lookup_put]
            cases hk : l.reverse.lookup k with
            | some v => rfl
            | none =>
              by_cases hka : k = a
              · subst hka; simp
              · have : (k == a) = false := by simpa using hka
                simp [hka, List.lookup_cons, this]
          · intro e he
            rcases m3 e he with h | h
            · exact .inl (List.mem_cons_of_mem _ h)
            · unfold put at h
              rcases List.mem_append.1 h with h | h
              · exact .inr (List.mem_filter.1 h).1
              · rw [List.mem_singleton] at h; subst h; exact .inl (List.mem_cons_self ..)
        · intro e he
          obtain ⟨m1, x, hx, m2⟩ := n2 e he
          exact ⟨m1, x, List.mem_cons_of_mem _ hx, m2⟩

end Gomill.Conf
