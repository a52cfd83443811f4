import Verif.Props.Players
import Verif.Spec.Playoff
/-
Lemmas for C75: the settings of a matchup.
-/
namespace Gomill.Conf
open Py Spec

variable {W : World} {α β : Type}

/-! ### dict.update -/

theorem lookup_update : ∀ (e d : List (Str × α)) (n : Str), (e.map Prod.fst).Nodup → (update d e).lookup n = match e.lookup n with | some v => some v | none => d.lookup n
  | [], d, n, _ => rfl
  | (k, v) :: e, d, n, h => by
    have hk := List.nodup_cons.1 h
    show (update (put d k v) e).lookup n = _
    rw [lookup_update e (put d k v) n hk.2, List.lookup_cons]
    by_cases hn : n = k
    · subst hn
      have : e.lookup n = none := (lookup_none _ _).2 hk.1
      simp only [this, lookup_put, if_pos, beq_self_eq_true]
    · rw [show (n == k) = false from by simpa using hn]
      simp only [lookup_put, if_neg hn]

theorem loadSettings_nodup {config : List (Str × Val)} {ad am : Bool} : ∀ (settings : List Setting) (d r : List (Str × SVal)), (d.map Prod.fst).Nodup →
    loadSettings W config ad am settings d = .ok r → (r.map Prod.fst).Nodup
  | [], d, r, hd, h => by cases h; exact hd
  | s :: ss, d, r, hd, h => by
    unfold loadSettings at h
    split at h
    · cases h
    · exact loadSettings_nodup ss d r hd h
    · exact loadSettings_nodup ss _ r (nodup_put _ _ _ hd) h

/-! ### Filling in the defaults -/

/-- What the parameter for a setting is. -/
def Fills (ps : List (Str × SVal)) (s : Setting) (x : SVal) : Prop := ps.lookup s.name = some x ∨ (ps.lookup s.name = none ∧ s.default = some x)

theorem fill_spec (ps : List (Str × SVal)) : ∀ (settings : List Setting) (d : List (Str × SVal)), (settings.map Setting.name).Nodup →
    (∀ r, fillDefaults ps settings d = .ok r → (∀ s ∈ settings, ∃ x, Fills ps s x ∧ r.lookup s.name = some x) ∧
      ∀ n, n ∉ settings.map Setting.name → r.lookup n = d.lookup n) ∧
    (∀ e, fillDefaults ps settings d = .error e → ∃ s ∈ settings, ps.lookup s.name = none ∧ s.default = none ∧ e = ⟨.value, '\'' :: s.name ++ "' not specified".toList⟩)
  | [], d, _ => by
    refine ⟨?_, ?_⟩
    · intro r h; cases h; exact ⟨fun s hs => (by cases hs), fun _ _ => rfl⟩
    · intro e h; cases h
  | s :: ss, d, hn => by
    have hn' := List.nodup_cons.1 hn
    have step : ∀ v, Fills ps s v → (∀ r, fillDefaults ps ss (put d s.name v) = .ok r → (∀ t ∈ s :: ss, ∃ x, Fills ps t x ∧ r.lookup t.name = some x) ∧
        ∀ n, n ∉ (s :: ss).map Setting.name → r.lookup n = d.lookup n) := by
      intro v hv r hr
      obtain ⟨h1, h2⟩ := (fill_spec ps ss (put d s.name v) hn'.2).1 r hr
      refine ⟨?_, ?_⟩
      · intro t ht
        rcases List.mem_cons.1 ht with rfl | ht
        · refine ⟨v, hv, ?_⟩
          rw [h2 _ hn'.1, lookup_put, if_pos rfl]
        · exact h1 t ht
      · intro n hn
        rw [List.map_cons, List.mem_cons, not_or] at hn
        rw [h2 n hn.2, lookup_put, if_neg hn.1]
    have err : ∀ v, ∀ e, fillDefaults ps ss (put d s.name v) = .error e → ∃ t ∈ s :: ss, ps.lookup t.name = none ∧ t.default = none ∧
        e = ⟨.value, '\'' :: t.name ++ "' not specified".toList⟩ := by
      intro v e he
      obtain ⟨t, ht, h⟩ := (fill_spec ps ss (put d s.name v) hn'.2).2 e he
      exact ⟨t, List.mem_cons_of_mem _ ht, h⟩
    unfold fillDefaults
    cases h1 : ps.lookup s.name with
    | some v => exact ⟨step v (.inl h1), err v⟩
    | none =>
      cases h2 : s.default with
      | some v => exact ⟨step v (.inr ⟨h1, h2⟩), err v⟩
      | none =>
        refine ⟨?_, ?_⟩
        · intro r h; cases h
        · intro e h; cases h; exact ⟨s, List.mem_cons_self .., h1, h2, rfl⟩

/-! ### The value of a setting -/

/-- The value of a setting for a matchup. -/
def Effective (W : World) (own config : List (Str × Val)) (s : Setting) (x : SVal) : Prop :=
  (∃ v, Has W own s.name v ∧ s.interpreter v = .ok x) ∨ (own.lookup s.name = none ∧ Gets W config true s x)

variable {own config : List (Str × Val)}

theorem effective_unique {s : Setting} {x y : SVal} (h : Effective W own config s x) (h' : Effective W own config s y) : x = y := by
  have key : ∀ {x y}, (∃ v, Has W own s.name v ∧ s.interpreter v = .ok x) → own.lookup s.name = none ∧ Gets W config true s y → False := by
    rintro x y ⟨v, ⟨u, hu, _⟩, _⟩ ⟨hn, _⟩
    rw [hn] at hu; cases hu
  rcases h with h | h <;> rcases h' with h' | h'
  · obtain ⟨v, h1, h2⟩ := h
    obtain ⟨v', h1', h2'⟩ := h'
    rw [has_unique h1' h1, h2] at h2'
    cases h2'; rfl
  · exact (key h h').elim
  · exact (key h' h).elim
  · exact gets_unique h.2 h'.2

section
variable {settings : List Setting} (hn : (settings.map Setting.name).Nodup) (hk : ∀ s ∈ settings, NoKeyError s)
  {defaults interpreted : List (Str × SVal)} (hd : loadSettings W config true true settings [] = .ok defaults)
include hn hk hd

/-- The parameters for a matchup. -/
theorem parameters_fill (hi : loadSettings W own false true settings [] = .ok interpreted) {s : Setting} (hs : s ∈ settings) (x : SVal) :
    Fills (update defaults interpreted) s x ↔ Effective W own config s x := by
  have hi1 := ((C73_load_settings W own false true settings hn hk).1 _ hi).1 s hs
  have hd1 := ((C73_load_settings W config true true settings hn hk).1 _ hd).1 s hs
  have hu := lookup_update interpreted defaults s.name (loadSettings_nodup settings [] _ (by simp) hi)
  unfold Fills
  rcases hi1 with ⟨y, h1, h2⟩ | ⟨h1, _, h2⟩
  · rw [hu, h2]
    simp only
    have hy : Effective W own config s y := by
      cases h1 with
      | given h1 h2 => exact .inl ⟨_, h1, h2⟩
      | default _ h _ => cases h
    constructor
    · rintro (h | ⟨h, _⟩)
      · cases h; exact hy
      · cases h
    · intro h; exact .inl (by rw [effective_unique h hy])
  · rw [hu, h2]
    simp only
    rcases hd1 with ⟨y, h3, h4⟩ | ⟨h3, _, h4⟩
    · rw [h4]
      have hy : Effective W own config s y := .inr ⟨h1.1, h3⟩
      constructor
      · rintro (h | ⟨h, _⟩)
        · cases h; exact hy
        · cases h
      · intro h; exact .inl (by rw [effective_unique h hy])
    · rw [h4]
      have hnone : s.default = none := by
        cases hdf : s.default with
        | none => rfl
        | some z => exact absurd ⟨rfl, by rw [hdf]; rfl⟩ h3.2
      constructor
      · rintro (h | ⟨_, h⟩)
        · cases h
        · rw [hnone] at h; cases h
      · rintro (⟨v, ⟨u, hu, _⟩, _⟩ | ⟨_, h⟩)
        · rw [h1.1] at hu; cases hu
        · exact absurd h3 (gets_not_missing h)

/-- The matchup's settings are the effective ones. -/
theorem filled (hi : loadSettings W own false true settings [] = .ok interpreted) {d : List (Str × SVal)} (hf : fillDefaults (update defaults interpreted) settings [] = .ok d)
    {s : Setting} (hs : s ∈ settings) {x : SVal} (hx : d.lookup s.name = some x) : Effective W own config s x := by
  obtain ⟨y, hy, hl⟩ := ((fill_spec _ settings [] hn).1 d hf).1 s hs
  rw [hl] at hx
  cases hx
  exact (parameters_fill hn hk hd hi hs _).1 hy

/-- If each setting has an effective value, the matchup gets it. -/
theorem fill_exists (h : ∀ s ∈ settings, ∃ x, Effective W own config s x) :
    ∃ interpreted, loadSettings W own false true settings [] = .ok interpreted ∧ ∃ d, fillDefaults (update defaults interpreted) settings [] = .ok d ∧
      ∀ s ∈ settings, ∀ x, Effective W own config s x → d.lookup s.name = some x := by
  obtain ⟨i, hi⟩ := loadSettings_ok (W := W) (config := own) (ad := false) (am := true) hn hk (by
    intro s hs
    obtain ⟨x, hx⟩ := h s hs
    rcases hx with ⟨v, h1, h2⟩ | ⟨h1, _⟩
    · exact .inl ⟨x, .given h1 h2⟩
    · exact .inr ⟨⟨h1, fun h => nomatch h.1⟩, rfl⟩)
  refine ⟨i, hi, ?_⟩
  cases hf : fillDefaults (update defaults i) settings [] with
  | error e =>
    exfalso
    obtain ⟨s, hs, h1, h2, _⟩ := (fill_spec _ settings [] hn).2 e hf
    obtain ⟨x, hx⟩ := h s hs
    rcases (parameters_fill hn hk hd hi hs x).2 hx with h | ⟨_, h⟩
    · rw [h1] at h; cases h
    · rw [h2] at h; cases h
  | ok d =>
    refine ⟨d, rfl, ?_⟩
    intro s hs x hx
    obtain ⟨y, hy, hl⟩ := ((fill_spec _ settings [] hn).1 d hf).1 s hs
    rw [hl, effective_unique hx ((parameters_fill hn hk hd hi hs _).1 hy)]
end

/-- Effective values of settings made with `sv`. -/
theorem effective_sv {f : Val → Except Err α} {P : Val → α → Prop} (hf : ∀ v x, f v = .ok x ↔ P v x) {g : α → SVal} (hg : ∀ x y, g x = g y → x = y) {name : String}
    {default : Option α} {look : Str → Option Val} (hl : ∀ n, own.lookup n = look n) {x : α} :
    Effective W own config { name := name.toList, interpreter := sv f g, default := default.map g } (g x) ↔ ValueOf W look (fun n => config.lookup n) name P default x := by
  have sv_iff : ∀ v, sv f g v = .ok (g x) ↔ P v x := by
    intro v
    rw [← hf]
    unfold sv
    cases h : f v with
    | error e => exact ⟨(fun h => nomatch h), (fun h => nomatch h)⟩
    | ok y =>
      constructor
      · intro h; injection h with h; rw [hg _ _ h]
      · intro h; injection h with h; subst h; rfl
  unfold Effective ValueOf Given
  simp only [sv_iff]
  rw [hl]
  refine or_congr ?_ (and_congr Iff.rfl ?_)
  · unfold Has
    rw [hl]
  · constructor
    · intro h
      cases h with
      | given h1 h2 => exact .inl ⟨_, h1, (sv_iff _).1 h2⟩
      | default h1 _ h2 =>
        refine .inr ⟨h1, ?_⟩
        cases default with
        | none => cases h2
        | some y => simp only [Option.map_some] at h2; injection h2 with h2; rw [hg _ _ h2]
    · rintro (⟨v, h1, h2⟩ | ⟨h1, rfl⟩)
      · exact .given h1 ((sv_iff _).2 h2)
      · exact .default h1 rfl rfl

/-! ### Handicaps -/

theorem maxFixed_eq {n : Int} (h : 2 ≤ n ∧ n ≤ 25) : Handicap.maxFixed n = .ok (maxFixedStones n) := by
  unfold Handicap.maxFixed maxFixedStones
  split
  · rfl
  · rename_i h7
    rw [if_neg (by omega)]
    have : n.fmod 2 = n % 2 := Int.fmod_eq_emod_of_nonneg n (by decide)
    rw [this]
    by_cases h2 : n % 2 = 0
    · rw [if_pos (.inl h2), if_pos h2]
    · rw [if_neg (by omega), if_neg h2]

theorem validateHandicap_ok {h : Option Int} {style : Str} {n : Int} (hn : 2 ≤ n ∧ n ≤ 25) : validateHandicap h style n = .ok () ↔ HandicapAllowed h style n := by
  unfold validateHandicap HandicapAllowed
  cases h with
  | none => exact ⟨fun _ k h => (nomatch h), fun _ => rfl⟩
  | some k =>
    simp only [Option.some.injEq, forall_eq']
    by_cases hk : k < 2
    · rw [if_pos hk]
      exact ⟨(fun h => nomatch h), fun h => by omega⟩
    · rw [if_neg hk]
      by_cases hs : style = "fixed".toList
      · rw [if_pos hs, if_pos hs, maxFixed_eq hn]
        simp only
        by_cases hm : k > maxFixedStones n
        · rw [if_pos hm]; exact ⟨(fun h => nomatch h), fun h => by omega⟩
        · rw [if_neg hm]; exact ⟨fun _ => ⟨by omega, by omega⟩, fun _ => rfl⟩
      · rw [if_neg hs, if_neg hs]
        simp only
        have hmf : Handicap.maxFree n = n * n - 1 := rfl
        by_cases hm : k > Handicap.maxFree n
        · rw [if_pos hm]; exact ⟨(fun h => nomatch h), fun h => by omega⟩
        · rw [if_neg hm]; exact ⟨fun _ => ⟨by omega, by omega⟩, fun _ => rfl⟩

theorem validateHandicap_error {h : Option Int} {style : Str} {n : Int} (hn : 2 ≤ n ∧ n ≤ 25) {e : Err} (he : validateHandicap h style n = .error e) : e.kind = .controlFile := by
  unfold validateHandicap at he
  split at he
  · cases he
  · split at he
    · cases he; rfl
    · split at he
      · rename_i e' hm
        split at hm
        · rw [maxFixed_eq hn] at hm; cases hm
        · cases hm
      · split at he
        · cases he; rfl
        · cases he

end Gomill.Conf
