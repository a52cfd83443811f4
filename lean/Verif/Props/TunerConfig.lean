import Verif.Spec.TunerConfig
import Verif.Props.RoundRobin
/-
C83: tuners' control files.
-/
namespace Gomill.Conf
open Py Spec

section
variable {W : World} {T : Fns} {config : List (Str × Val)}

/-! ### Reading settings -/

/-- What's been read for a setting. -/
theorem reads {ss : List Setting} (hn : (ss.map Setting.name).Nodup) (hk : ∀ s ∈ ss, NoKeyError s) {d : List (Str × SVal)} (hd : loadSettings W config true false ss [] = .ok d)
    {α : Type} {f : Val → Except Err α} {P : Val → α → Prop} (hf : ∀ v x, f v = .ok x ↔ P v x) {g : α → SVal} (hg : ∀ x y, g x = g y → x = y) {name : String} {default : Option α}
    (hs : ({ name := name.toList, interpreter := sv f g, default := default.map g } : Setting) ∈ ss) :
    ∃ x, d.lookup name.toList = some (g x) ∧ ∀ y, SettingIs W (fun n => config.lookup n) name P default y ↔ y = x := by
  rcases ((C73_load_settings W config true false _ hn hk).1 d hd).1 _ hs with ⟨z, h1, h2⟩ | ⟨_, h, _⟩
  · obtain ⟨x, rfl⟩ := effective_form (default := default) (effective_nil.2 h1)
    refine ⟨x, h2, fun y => ?_⟩
    rw [← setting_iff hf hg]
    constructor
    · intro hy
      exact hg _ _ (gets_unique hy h1)
    · rintro rfl; exact h1
  · cases h

theorem loadSettings_append (ad am : Bool) (a b : List Setting) : ∀ acc, loadSettings W config ad am (a ++ b) acc =
    (match loadSettings W config ad am a acc with | .ok r => loadSettings W config ad am b r | .error e => .error e) := by
  induction a with
  | nil => intro acc; rfl
  | cons s a ih =>
    intro acc
    rw [List.cons_append, loadSettings, loadSettings]
    cases Setting.load W config ad am s with
    | error e => rfl
    | ok x =>
      cases x with
      | none => exact ih acc
      | some x => exact ih _

theorem int_inj (x y : Int) (h : SVal.int x = SVal.int y) : x = y := by injection h
theorem str_inj (x y : Str) (h : SVal.str x = SVal.str y) : x = y := by injection h
theorem float_inj (x y : Num) (h : SVal.float x = SVal.float y) : x = y := by injection h
theorem vals_inj (x y : List Val) (h : SVal.vals x = SVal.vals y) : x = y := by injection h
theorem fn_inj (x y : Val) (h : fnVal x = fnVal y) : x = y := by
  have := vals_inj _ _ h
  injection this
theorem ints_inj (x y : List Int) (h : intsVal x = intsVal y) : x = y := by
  have := vals_inj _ _ h
  exact List.map_injective_iff.2 (fun a b h => by injection h) this
theorem optStr_inj (x y : Option Str) (h : optVal SVal.str x = optVal SVal.str y) : x = y := by
  cases x <;> cases y <;> simp_all [optVal]
theorem colour_inj (x y : Option Colour) (h : colourVal x = colourVal y) : x = y := by
  have key : ∀ a b : Option Colour, (match colourVal a, colourVal b with | .str s, .str t => decide (s = t) | _, _ => false) = true → a = b := by
    intro a b
    rcases a with _ | _ | _ <;> rcases b with _ | _ | _ <;> decide +kernel
  apply key
  rw [h]
  rcases y with _ | _ | _ <;> decide +kernel

/-! ### Interpreters -/

theorem colourOf_iff {s : Str} {c : Colour} : colourOf s = some c ↔ ColourName s c := by
  unfold colourOf
  constructor
  · intro h
    split at h
    · rename_i hs
      injection h with h; subst h
      rcases hs with rfl | rfl
      · exact .b
      · exact .black
    · split at h
      · rename_i hs
        injection h with h; subst h
        rcases hs with rfl | rfl
        · exact .w
        · exact .white
      · cases h
  · intro h
    cases h <;> decide +kernel

theorem interprets_colour : Interprets (interpretCandidateColour T) (CandidateColour T) := by
  have lr : ∀ {s c}, (s = "r".toList ∨ s = "random".toList) → ¬ ColourName (lower s) c := by
    rintro s c (rfl | rfl) h
    · rw [← colourOf_iff] at h
      have e : colourOf (lower "r".toList) = none := by decide +kernel
      rw [e] at h; cases h
    · rw [← colourOf_iff] at h
      have e : colourOf (lower "random".toList) = none := by decide +kernel
      rw [e] at h; cases h
  constructor
  · intro v x
    unfold interpretCandidateColour
    cases hr : interpretCandidateColour.isRandom v with
    | true =>
      rw [if_pos rfl]
      have : ∃ s, (s = "r".toList ∨ s = "random".toList) ∧ IsString v s := by
        cases v <;> simp only [interpretCandidateColour.isRandom, decide_eq_true_eq] at hr <;> try (cases hr)
        all_goals first
          | exact ⟨_, .inl (by assumption), by first | exact .inl rfl | exact .inr rfl⟩
          | exact ⟨_, .inr (by assumption), by first | exact .inl rfl | exact .inr rfl⟩
      obtain ⟨s, hs, hv⟩ := this
      constructor
      · intro h; injection h with h; subst h; exact .random hs hv
      · intro h
        cases h with
        | random => rfl
        | str h =>
          rcases hv with hv | hv
          · injection hv with hv; subst hv; exact absurd h (lr hs)
          · cases hv
        | unicode h1 h2 _ =>
          rcases hv with hv | hv
          · cases hv
          · injection hv with hv; subst hv
            rcases hs with hs | hs
            · exact absurd hs h1
            · exact absurd hs h2
    | false =>
      rw [if_neg (by decide)]
      have nr : ∀ s, (s = "r".toList ∨ s = "random".toList) → ¬ IsString v s := by
        rintro s hs (rfl | rfl)
        · simp only [interpretCandidateColour.isRandom, decide_eq_false_iff_not] at hr; exact hr hs
        · simp only [interpretCandidateColour.isRandom, decide_eq_false_iff_not] at hr; exact hr hs
      unfold interpretColour
      cases v
      case str s =>
        dsimp only
        cases hc : colourOf (lower s) with
        | none =>
          refine ⟨nofun, fun h => ?_⟩
          cases h with
          | random a b => exact absurd b (nr _ a)
          | str h => rw [colourOf_iff.2 h] at hc; cases hc
        | some c =>
          constructor
          · intro h; injection h with h; subst h; exact .str (colourOf_iff.1 hc)
          · intro h
            cases h with
            | random a b => exact absurd b (nr _ a)
            | str h => rw [colourOf_iff.2 h] at hc; injection hc with hc; subst hc; rfl
      case unicode s =>
        dsimp only
        cases hc : colourOf (T.lowerU s) with
        | none =>
          refine ⟨nofun, fun h => ?_⟩
          cases h with
          | random a b => exact absurd b (nr _ a)
          | unicode _ _ h => rw [colourOf_iff.2 h] at hc; cases hc
        | some c =>
          constructor
          · intro h; injection h with h; subst h
            exact .unicode (fun h => nr _ (.inl h) (.inr rfl)) (fun h => nr _ (.inr h) (.inr rfl)) (colourOf_iff.1 hc)
          · intro h
            cases h with
            | random a b => exact absurd b (nr _ a)
            | unicode _ _ h => rw [colourOf_iff.2 h] at hc; injection hc with hc; subst hc; rfl
      all_goals
        refine ⟨nofun, fun h => ?_⟩
        cases h with
        | random a b => exact absurd b (nr _ a)
  · intro v e h
    unfold interpretCandidateColour at h
    split at h
    · cases h
    · unfold interpretColour at h
      split at h
      · cases h
      · rename_i he
        split at he
        · cases he
        · injection he with he; injection h with h; rw [← h, ← he]; rfl

theorem interprets_callable : Interprets (interpretCallable T) (IsFn T) := by
  constructor
  · intro v x
    unfold interpretCallable IsFn
    split
    · rename_i h
      constructor
      · intro h'; injection h' with h'; exact ⟨h'.symm, h⟩
      · rintro ⟨rfl, _⟩; rfl
    · rename_i h
      exact ⟨nofun, fun h' => absurd h'.2 h⟩
  · intro v e h
    unfold interpretCallable at h
    split at h
    · cases h
    · injection h with h; rw [← h]; rfl

theorem interpretItems_ok {α : Type} {f : Val → Except Err α} {P : Val → α → Prop} (hf : ∀ v x, f v = .ok x ↔ P v x) : ∀ (l : List Val) (i : Nat) (r : List α),
    interpretItems f i l = .ok r ↔ List.Forall₂ P l r
  | [], i, r => by
    rw [List.forall₂_nil_left_iff]
    unfold interpretItems
    exact ⟨fun h => by injection h with h; exact h.symm, fun h => by rw [h]⟩
  | v :: l, i, r => by
    unfold interpretItems
    cases hv : f v with
    | error e =>
      refine ⟨nofun, fun h => ?_⟩
      cases h with
      | cons h _ => rw [(hf _ _).2 h] at hv; cases hv
    | ok x =>
      dsimp only
      cases hr : interpretItems f (i + 1) l with
      | error e =>
        refine ⟨nofun, fun h => ?_⟩
        cases h with
        | cons _ h => rw [(interpretItems_ok hf l _ _).2 h] at hr; cases hr
      | ok r' =>
        constructor
        · intro h; injection h with h; subst h
          exact .cons ((hf _ _).1 hv) ((interpretItems_ok hf l _ _).1 hr)
        · intro h
          cases h with
          | cons h h' =>
            rw [(hf _ _).2 h] at hv; injection hv with hv
            rw [(interpretItems_ok hf l _ _).2 h'] at hr; injection hr with hr
            subst hv hr; rfl

theorem interprets_ints : Interprets (interpretInts W) (IsInts W) := by
  constructor
  · intro v x
    unfold interpretInts IsInts
    cases hs : interpretSequence W v with
    | error e =>
      refine ⟨nofun, ?_⟩
      rintro ⟨vs, h, _⟩
      rw [(interprets_sequence.1 v vs).2 h] at hs; cases hs
    | ok l =>
      have hl := (interprets_sequence.1 _ _).1 hs
      dsimp only
      rw [interpretItems_ok interprets_int.1]
      constructor
      · intro h; exact ⟨l, hl, h⟩
      · rintro ⟨vs, h1, h2⟩
        rw [hl] at h1; injection h1 with h1; subst h1; exact h2
  · intro v e h
    unfold interpretInts at h
    split at h
    · rename_i hs; injection h with h; subst h; exact interprets_sequence.2 _ _ hs
    · exact interpretItems_error interprets_int.2 _ _ _ h

/-- The interpreter for a string whose default is None. -/
def orDefault (v : Val) : Except Err (Option Str) :=
  match interpret8bit v with
  | .ok s => .ok (some s)
  | .error e => .error e

theorem orDefault_ok (v : Val) (x : Option Str) : orDefault v = .ok x ↔ ∃ s, CText v s ∧ x = some s := by
  unfold orDefault
  cases h : interpret8bit v with
  | ok s =>
    have hs := (interprets_8bit.1 _ _).1 h
    constructor
    · intro h; injection h with h; exact ⟨s, hs, h.symm⟩
    · rintro ⟨t, ht, rfl⟩
      rw [(interprets_8bit.1 _ _).2 ht] at h; injection h with h; rw [h]
  | error e =>
    refine ⟨nofun, ?_⟩
    rintro ⟨t, ht, rfl⟩
    rw [(interprets_8bit.1 _ _).2 ht] at h; cases h

theorem orDefault_eq : sv interpret8bit (fun s => SVal.str s) = sv orDefault (optVal .str) := by
  funext v
  unfold sv orDefault
  cases interpret8bit v <;> rfl

/-! ### Reading stored settings -/

section
variable {ss : List Setting} (hn : (ss.map Setting.name).Nodup) (hk : ∀ s ∈ ss, NoKeyError s) {d : List (Str × SVal)} (hd : loadSettings W config true false ss [] = .ok d)
  {name : String}
include hn hk hd

theorem reads_int {f : Val → Except Err Int} {P : Val → Int → Prop} (hf : ∀ v x, f v = .ok x ↔ P v x) {default : Option Int}
    (hs : ({ name := name.toList, interpreter := sv f .int, default := default.map .int } : Setting) ∈ ss) (y : Int) :
    intOf d name = .ok y ↔ SettingIs W (fun n => config.lookup n) name P default y := by
  obtain ⟨x, h1, h2⟩ := reads hn hk hd hf int_inj hs
  rw [h2, intOf_ok, h1]
  exact ⟨fun h => (int_inj _ _ (Option.some.inj h)).symm, fun h => by rw [h]⟩

theorem reads_float {f : Val → Except Err Num} {P : Val → Num → Prop} (hf : ∀ v x, f v = .ok x ↔ P v x) {default : Option Num}
    (hs : ({ name := name.toList, interpreter := sv f .float, default := default.map .float } : Setting) ∈ ss) (y : Num) :
    floatOf d name = .ok y ↔ SettingIs W (fun n => config.lookup n) name P default y := by
  obtain ⟨x, h1, h2⟩ := reads hn hk hd hf float_inj hs
  rw [h2, floatOf_ok, h1]
  exact ⟨fun h => (float_inj _ _ (Option.some.inj h)).symm, fun h => by rw [h]⟩

theorem reads_str {f : Val → Except Err Str} {P : Val → Str → Prop} (hf : ∀ v x, f v = .ok x ↔ P v x) {default : Option Str}
    (hs : ({ name := name.toList, interpreter := sv f .str, default := default.map .str } : Setting) ∈ ss) (y : Str) :
    strOf d name = .ok y ↔ SettingIs W (fun n => config.lookup n) name P default y := by
  obtain ⟨x, h1, h2⟩ := reads hn hk hd hf str_inj hs
  rw [h2, strOf_ok, h1]
  exact ⟨fun h => (str_inj _ _ (Option.some.inj h)).symm, fun h => by rw [h]⟩

theorem reads_optInt {f : Val → Except Err (Option Int)} {P : Val → Option Int → Prop} (hf : ∀ v x, f v = .ok x ↔ P v x) {default : Option (Option Int)}
    (hs : ({ name := name.toList, interpreter := sv f (optVal .int), default := default.map (optVal .int) } : Setting) ∈ ss) (y : Option Int) :
    optIntOf d name = .ok y ↔ SettingIs W (fun n => config.lookup n) name P default y := by
  obtain ⟨x, h1, h2⟩ := reads hn hk hd hf optInt_inj hs
  rw [h2, optIntOf_ok, h1]
  exact ⟨fun h => (optInt_inj _ _ (Option.some.inj h)).symm, fun h => by rw [h]⟩

theorem reads_optStr {f : Val → Except Err (Option Str)} {P : Val → Option Str → Prop} (hf : ∀ v x, f v = .ok x ↔ P v x) {default : Option (Option Str)}
    (hs : ({ name := name.toList, interpreter := sv f (optVal .str), default := default.map (optVal .str) } : Setting) ∈ ss) (y : Option Str) :
    optStrOf d name = .ok y ↔ SettingIs W (fun n => config.lookup n) name P default y := by
  obtain ⟨x, h1, h2⟩ := reads hn hk hd hf optStr_inj hs
  rw [h2]
  have : optStrOf d name = .ok x := by
    unfold optStrOf
    rw [h1]
    cases x <;> rfl
  rw [this]
  exact ⟨fun h => by injection h with h; exact h.symm, fun h => by rw [h]⟩

theorem reads_fn {f : Val → Except Err Val} {P : Val → Val → Prop} (hf : ∀ v x, f v = .ok x ↔ P v x) {default : Option Val}
    (hs : ({ name := name.toList, interpreter := sv f fnVal, default := default.map fnVal } : Setting) ∈ ss) (y : Val) :
    fnOf d name = .ok y ↔ SettingIs W (fun n => config.lookup n) name P default y := by
  obtain ⟨x, h1, h2⟩ := reads hn hk hd hf fn_inj hs
  rw [h2]
  have : fnOf d name = .ok x := by
    unfold fnOf
    rw [h1]
    rfl
  rw [this]
  exact ⟨fun h => by injection h with h; exact h.symm, fun h => by rw [h]⟩

theorem reads_vals {f : Val → Except Err (List Val)} {P : Val → List Val → Prop} (hf : ∀ v x, f v = .ok x ↔ P v x) {default : Option (List Val)}
    (hs : ({ name := name.toList, interpreter := sv f .vals, default := default.map .vals } : Setting) ∈ ss) (y : List Val) :
    valsOf d name = .ok y ↔ SettingIs W (fun n => config.lookup n) name P default y := by
  obtain ⟨x, h1, h2⟩ := reads hn hk hd hf vals_inj hs
  rw [h2]
  have : valsOf d name = .ok x := by
    unfold valsOf
    rw [h1]
  rw [this]
  exact ⟨fun h => by injection h with h; exact h.symm, fun h => by rw [h]⟩

theorem reads_ints {f : Val → Except Err (List Int)} {P : Val → List Int → Prop} (hf : ∀ v x, f v = .ok x ↔ P v x) {default : Option (List Int)}
    (hs : ({ name := name.toList, interpreter := sv f intsVal, default := default.map intsVal } : Setting) ∈ ss) (y : List Int) :
    intsOf d name = .ok y ↔ SettingIs W (fun n => config.lookup n) name P default y := by
  obtain ⟨x, h1, h2⟩ := reads hn hk hd hf ints_inj hs
  rw [h2]
  have : intsOf d name = .ok x := by
    unfold intsOf
    rw [h1]
    unfold intsVal
    dsimp only
    rw [List.filterMap_map]
    congr 1
    exact List.filterMap_some
  rw [this]
  exact ⟨fun h => by injection h with h; exact h.symm, fun h => by rw [h]⟩

omit name in
theorem reads_colour {f : Val → Except Err (Option Colour)} {P : Val → Option Colour → Prop} (hf : ∀ v x, f v = .ok x ↔ P v x) {default : Option (Option Colour)}
    (hs : ({ name := "candidate_colour".toList, interpreter := sv f colourVal, default := default.map colourVal } : Setting) ∈ ss) (y : Option Colour) :
    colourSetting d = .ok y ↔ SettingIs W (fun n => config.lookup n) "candidate_colour" P default y := by
  obtain ⟨x, h1, h2⟩ := reads hn hk hd hf colour_inj hs
  rw [h2]
  have : colourSetting d = .ok x := by
    unfold colourSetting
    rw [h1]
    have n1 : ¬ "w".toList = "b".toList := by decide
    have n2 : ¬ "random".toList = "b".toList := by decide
    have n3 : ¬ "random".toList = "w".toList := by decide
    rcases x with _ | _ | _
    · unfold colourVal; dsimp only; rw [if_neg n2, if_neg n3]
    · unfold colourVal; dsimp only; rw [if_pos rfl]
    · unfold colourVal; dsimp only; rw [if_neg n1, if_pos rfl]
  rw [this]
  exact ⟨fun h => by injection h with h; exact h.symm, fun h => by rw [h]⟩

end

/-- The settings can be read if each has a value. -/
theorem load_iff {ss : List Setting} (hn : (ss.map Setting.name).Nodup) (hk : ∀ s ∈ ss, NoKeyError s) :
    (∃ d, loadSettings W config true false ss [] = .ok d) ↔ ∀ s ∈ ss, ∃ x, Gets W config true s x := by
  constructor
  · rintro ⟨d, hd⟩ s hs
    rcases ((C73_load_settings W config true false _ hn hk).1 d hd).1 s hs with ⟨x, h, _⟩ | ⟨_, h, _⟩
    · exact ⟨x, h⟩
    · cases h
  · intro h
    exact loadSettings_ok hn hk (fun s hs => .inl (h s hs))

theorem mem_at {ss : List Setting} (k : Nat) {s : Setting} (h : ss[k]? = some s) : s ∈ ss := List.mem_of_getElem? h

/-! ### Parameters -/

theorem cemParameterSettings_nodup : ((cemParameterSettings W T).map Setting.name).Nodup := by
  show (["code".toList, "initial_mean".toList, "initial_variance".toList, "transform".toList, "format".toList] : List Str).Nodup
  decide +kernel

theorem cemParameterSettings_noKey : ∀ s ∈ cemParameterSettings W T, NoKeyError s := by
  intro s hs
  simp only [cemParameterSettings, List.mem_cons, List.not_mem_nil, or_false] at hs
  rcases hs with rfl | rfl | rfl | rfl | rfl
  · exact sv_noKey interprets_identifier
  · exact float_noKey
  · exact float_noKey
  · exact sv_noKey interprets_callable
  · exact sv_noKey interprets_8bit

theorem mctsParameterSettings_nodup : ((mctsParameterSettings T).map Setting.name).Nodup := by
  show (["code".toList, "scale".toList, "split".toList, "format".toList] : List Str).Nodup
  decide +kernel

theorem mctsParameterSettings_noKey : ∀ s ∈ mctsParameterSettings T, NoKeyError s := by
  intro s hs
  simp only [mctsParameterSettings, List.mem_cons, List.not_mem_nil, or_false] at hs
  rcases hs with rfl | rfl | rfl | rfl
  · exact sv_noKey interprets_identifier
  · exact sv_noKey interprets_callable
  · exact sv_noKey interprets_positive
  · exact sv_noKey interprets_8bit

theorem format_iff {look : Str → Option Val} {dflt f : Str} :
    (∃ x, SettingIs W look "format" (fun v (x : Option Str) => ∃ s, CText v s ∧ x = some s) (some none) x ∧ f = x.getD dflt) ↔
    SettingIs W look "format" CText (some dflt) f := by
  unfold SettingIs
  constructor
  · rintro ⟨x, ⟨v, hv, s, hs, rfl⟩ | ⟨h, h'⟩, rfl⟩
    · exact .inl ⟨v, hv, hs⟩
    · injection h' with h'; subst h'; exact .inr ⟨h, rfl⟩
  · rintro (⟨v, hv, hs⟩ | ⟨h, h'⟩)
    · exact ⟨some f, .inl ⟨v, hv, f, hs, rfl⟩, rfl⟩
    · injection h' with h'; exact ⟨none, .inr ⟨h, rfl⟩, h'.symm⟩

theorem checkFormat_ok {code : Str} {x : Option Str} {v : Val} {f : Str} :
    checkFormat T code x v = .ok f ↔ f = x.getD (code ++ ":%s".toList) ∧ ∃ s, T.percent f v = some s := by
  unfold checkFormat
  dsimp only
  cases h : T.percent (x.getD (code ++ ":%s".toList)) v with
  | none =>
    refine ⟨nofun, ?_⟩
    rintro ⟨rfl, s, hs⟩
    rw [h] at hs; cases hs
  | some s =>
    constructor
    · intro h'; injection h' with h'; subst h'; exact ⟨rfl, s, h⟩
    · rintro ⟨rfl, _⟩; rfl

theorem tryFn_ok {fn : Val} {x : Num} {msg : Str} {v : Val} : tryFn T fn x msg = .ok v ↔ T.apply fn x = .ok v := by
  unfold tryFn
  cases T.apply fn x with
  | ok v' => exact ⟨fun h => by injection h with h; rw [h], fun h => by injection h with h; rw [h]⟩
  | error e => exact ⟨nofun, nofun⟩

theorem refuseIf_ok {b : Bool} {e : Err} {u : Unit} : refuseIf b e = .ok u ↔ b = false := by
  unfold refuseIf
  cases b
  · exact ⟨fun _ => rfl, fun _ => rfl⟩
  · exact ⟨nofun, nofun⟩

theorem negative_iff (x : Num) : Num.isNegative x = false ↔ x ≠ .negInf ∧ ∀ q, x = .fin q → 0 ≤ q := by
  cases x with
  | fin q =>
    simp only [Num.isNegative, decide_eq_false_iff_not, not_lt]
    exact ⟨fun h => ⟨nofun, fun q' h' => by injection h' with h'; rw [← h']; exact h⟩, fun h => h.2 q rfl⟩
  | inf => exact ⟨fun _ => ⟨nofun, nofun⟩, fun _ => rfl⟩
  | negInf => exact ⟨nofun, fun h => absurd rfl h.1⟩
  | nan => exact ⟨fun _ => ⟨nofun, nofun⟩, fun _ => rfl⟩

theorem proportion_iff (x : Num) : Num.isProportion x = true ↔ Proportion x := by
  unfold Proportion
  cases x with
  | fin q =>
    simp only [Num.isProportion, decide_eq_true_eq]
    exact ⟨fun h => ⟨q, rfl, h⟩, fun ⟨q', h', h⟩ => by injection h' with h'; rw [h']; exact h⟩
  | _ => exact ⟨nofun, fun ⟨_, h, _⟩ => (nomatch h)⟩

theorem arguments_iff {pos keys : List Str} {args : List Val} {kwargs : List (Str × Val)} (hn : (kwargs.map Prod.fst).Nodup) {α : Type} {f : List (Str × Val) → Except Err α} {p : α} :
    (resolveArguments pos keys args kwargs >>= f) = .ok p ↔
    GoodArguments pos keys args kwargs ∧ ∃ arguments, (fun n => arguments.lookup n) = argument pos args kwargs ∧ resolveArguments pos keys args kwargs = .ok arguments ∧
      f arguments = .ok p := by
  obtain ⟨h1, h2⟩ := C73_resolve_arguments pos keys args kwargs hn
  rw [bind_ok]
  constructor
  · rintro ⟨a, ha, h⟩
    by_cases g : GoodArguments pos keys args kwargs
    · obtain ⟨r, hr, hl⟩ := h1 g
      rw [hr] at ha; injection ha with ha; subst ha
      exact ⟨g, r, funext hl, hr, h⟩
    · obtain ⟨e, he, _⟩ := h2 g
      rw [he] at ha; cases ha
  · rintro ⟨_, a, _, ha, h⟩
    exact ⟨a, ha, h⟩

theorem cemKeys : ((cemParameterSettings W T).map Setting.name).filter (fun n => n ≠ "code".toList) =
    ["initial_mean".toList, "initial_variance".toList, "transform".toList, "format".toList] := by
  show (["code".toList, "initial_mean".toList, "initial_variance".toList, "transform".toList, "format".toList] : List Str).filter (fun n => n ≠ "code".toList) = _
  decide +kernel

theorem mctsKeys : ((mctsParameterSettings T).map Setting.name).filter (fun n => n ≠ "code".toList) = ["scale".toList, "split".toList, "format".toList] := by
  show (["code".toList, "scale".toList, "split".toList, "format".toList] : List Str).filter (fun n => n ≠ "code".toList) = _
  decide +kernel

/-- C83: the parameters which a cross-entropy tuner accepts. -/
theorem C83_cem_parameter (W : World) (T : Fns) (args : List Val) (kwargs : List (Str × Val)) (hn : (kwargs.map Prod.fst).Nodup) (p : CemParam) :
    cemParameter W T args kwargs = .ok p ↔ CemParamIs W T args kwargs p := by
  have hnd := cemParameterSettings_nodup (W := W) (T := T)
  have hk := cemParameterSettings_noKey (W := W) (T := T)
  have hm : ∀ k, ∀ {s}, (cemParameterSettings W T)[k]? = some s → s ∈ cemParameterSettings W T := fun k => mem_at k
  have m0 := hm 0 (s := { name := "code".toList, interpreter := sv interpretIdentifier .str, default := (none : Option Str).map .str }) rfl
  have m1 := hm 1 (s := { name := "initial_mean".toList, interpreter := sv (interpretFloat W) .float, default := (none : Option Num).map .float }) rfl
  have m2 := hm 2 (s := { name := "initial_variance".toList, interpreter := sv (interpretFloat W) .float, default := (none : Option Num).map .float }) rfl
  have m3 := hm 3 (s := { name := "transform".toList, interpreter := sv (interpretCallable T) fnVal, default := (some T.floatFn).map fnVal }) rfl
  have m4 := hm 4 (s := { name := "format".toList, interpreter := sv orDefault (optVal .str), default := (some none).map (optVal .str) })
    (by show some _ = some _; rw [← orDefault_eq]; rfl)
  unfold cemParameter
  rw [arguments_iff hn, cemKeys]
  constructor
  · rintro ⟨good, a, ha, -, h⟩
    simp only [bind_ok] at h
    obtain ⟨d, hd, code, h0, mean, h1, var, h2, tr, h3, fmt, h4, u, h5, v, h6, f, h7, h8⟩ := h
    injection h8 with h8; subst h8
    rw [refuseIf_ok] at h5
    rw [tryFn_ok] at h6
    obtain ⟨h7, s, h8⟩ := checkFormat_ok.1 h7
    rw [reads_str hnd hk hd interprets_identifier.1 m0, ha] at h0
    rw [reads_float hnd hk hd interprets_float m1, ha] at h1
    rw [reads_float hnd hk hd interprets_float m2, ha] at h2
    rw [reads_fn hnd hk hd interprets_callable.1 m3, ha] at h3
    rw [reads_optStr hnd hk hd orDefault_ok m4, ha] at h4
    exact ⟨good, h0, h1, h2, (negative_iff _).1 h5, h3, format_iff.1 ⟨fmt, h4, h7⟩, v, s, h6, h8⟩
  · intro h
    obtain ⟨a, hr, hl⟩ := (C73_resolve_arguments _ _ args kwargs hn).1 h.arguments
    have ha : (fun n => a.lookup n) = argument ["code".toList] args kwargs := funext hl
    refine ⟨h.arguments, a, ha, hr, ?_⟩
    obtain ⟨fmt, h4, h7⟩ := format_iff.2 h.format
    obtain ⟨v, s, h6, h8⟩ := h.works
    have g0 := h.code; have g1 := h.mean; have g2 := h.variance; have g3 := h.transform
    rw [← ha] at g0 g1 g2 g3 h4
    obtain ⟨d, hd⟩ := (load_iff (W := W) (config := a) hnd hk).2 (by
      intro s hs
      simp only [cemParameterSettings, List.mem_cons, List.not_mem_nil, or_false] at hs
      rcases hs with rfl | rfl | rfl | rfl | rfl
      · exact ⟨_, (setting_iff interprets_identifier.1 str_inj (default := none)).2 g0⟩
      · exact ⟨_, (setting_iff interprets_float float_inj (default := none)).2 g1⟩
      · exact ⟨_, (setting_iff interprets_float float_inj (default := none)).2 g2⟩
      · exact ⟨_, (setting_iff interprets_callable.1 fn_inj (default := some T.floatFn)).2 g3⟩
      · rw [orDefault_eq]
        exact ⟨_, (setting_iff orDefault_ok optStr_inj (default := some none)).2 h4⟩)
    simp only [bind_ok]
    exact ⟨d, hd, _, (reads_str hnd hk hd interprets_identifier.1 m0 _).2 g0, _, (reads_float hnd hk hd interprets_float m1 _).2 g1,
      _, (reads_float hnd hk hd interprets_float m2 _).2 g2, _, (reads_fn hnd hk hd interprets_callable.1 m3 _).2 g3, _, (reads_optStr hnd hk hd orDefault_ok m4 _).2 h4,
      (), refuseIf_ok.2 ((negative_iff _).2 h.nonnegative), v, tryFn_ok.2 h6, p.format, checkFormat_ok.2 ⟨h7, s, h8⟩, rfl⟩

/-- C83: the parameters which a tree-search tuner accepts. -/
theorem C83_mcts_parameter (W : World) (T : Fns) (args : List Val) (kwargs : List (Str × Val)) (hn : (kwargs.map Prod.fst).Nodup) (p : MctsParam) :
    mctsParameter W T args kwargs = .ok p ↔ MctsParamIs W T args kwargs p := by
  have hnd := mctsParameterSettings_nodup (T := T)
  have hk := mctsParameterSettings_noKey (T := T)
  have hm : ∀ k, ∀ {s}, (mctsParameterSettings T)[k]? = some s → s ∈ mctsParameterSettings T := fun k => mem_at k
  have m0 := hm 0 (s := { name := "code".toList, interpreter := sv interpretIdentifier .str, default := (none : Option Str).map .str }) rfl
  have m1 := hm 1 (s := { name := "scale".toList, interpreter := sv (interpretCallable T) fnVal, default := (none : Option Val).map fnVal }) rfl
  have m2 := hm 2 (s := { name := "split".toList, interpreter := sv interpretPositiveInt .int, default := (none : Option Int).map .int }) rfl
  have m3 := hm 3 (s := { name := "format".toList, interpreter := sv orDefault (optVal .str), default := (some none).map (optVal .str) })
    (by show some _ = some _; rw [← orDefault_eq]; rfl)
  have mid : ∀ n : Int, firstMiddle n = .fin (1 / n / 2) := by
    intro n
    unfold firstMiddle
    rw [div_div]
  unfold mctsParameter
  rw [arguments_iff hn, mctsKeys]
  constructor
  · rintro ⟨good, a, ha, -, h⟩
    simp only [bind_ok] at h
    obtain ⟨d, hd, code, h0, scale, h1, split, h2, fmt, h4, v, h6, f, h7, h8⟩ := h
    injection h8 with h8; subst h8
    rw [tryFn_ok, mid] at h6
    obtain ⟨h7, s, h8⟩ := checkFormat_ok.1 h7
    rw [reads_str hnd hk hd interprets_identifier.1 m0, ha] at h0
    rw [reads_fn hnd hk hd interprets_callable.1 m1, ha] at h1
    rw [reads_int hnd hk hd interprets_positive.1 m2, ha] at h2
    rw [reads_optStr hnd hk hd orDefault_ok m3, ha] at h4
    exact ⟨good, h0, h1, h2, format_iff.1 ⟨fmt, h4, h7⟩, v, s, h6, h8⟩
  · intro h
    obtain ⟨a, hr, hl⟩ := (C73_resolve_arguments _ _ args kwargs hn).1 h.arguments
    have ha : (fun n => a.lookup n) = argument ["code".toList] args kwargs := funext hl
    refine ⟨h.arguments, a, ha, hr, ?_⟩
    obtain ⟨fmt, h4, h7⟩ := format_iff.2 h.format
    obtain ⟨v, s, h6, h8⟩ := h.works
    have g0 := h.code; have g1 := h.scale; have g2 := h.split
    rw [← ha] at g0 g1 g2 h4
    obtain ⟨d, hd⟩ := (load_iff (W := W) (config := a) hnd hk).2 (by
      intro s hs
      simp only [mctsParameterSettings, List.mem_cons, List.not_mem_nil, or_false] at hs
      rcases hs with rfl | rfl | rfl | rfl
      · exact ⟨_, (setting_iff interprets_identifier.1 str_inj (default := none)).2 g0⟩
      · exact ⟨_, (setting_iff interprets_callable.1 fn_inj (default := none)).2 g1⟩
      · exact ⟨_, (setting_iff interprets_positive.1 int_inj (default := none)).2 g2⟩
      · rw [orDefault_eq]
        exact ⟨_, (setting_iff orDefault_ok optStr_inj (default := some none)).2 h4⟩)
    simp only [bind_ok]
    exact ⟨d, hd, _, (reads_str hnd hk hd interprets_identifier.1 m0 _).2 g0, _, (reads_fn hnd hk hd interprets_callable.1 m1 _).2 g1,
      _, (reads_int hnd hk hd interprets_positive.1 m2 _).2 g2, _, (reads_optStr hnd hk hd orDefault_ok m3 _).2 h4,
      v, tryFn_ok.2 (by rw [mid]; exact h6), p.format, checkFormat_ok.2 ⟨h7, s, h8⟩, rfl⟩

/-- The loop over the parameters. -/
theorem parametersLoop_ok {α : Type} {code : α → Str} {spec : List Val → List (Str × Val) → Except Err α} {is : List Val → List (Str × Val) → α → Prop}
    (hs : ∀ args kwargs, (kwargs.map Prod.fst).Nodup → ∀ p, spec args kwargs = .ok p ↔ is args kwargs p) : ∀ (l : List Val) (i : Nat) (ps r : List α), Kwargs l →
    (∀ x ∈ l, ∃ args kwargs, x = .quiet "Parameter".toList args kwargs) → (ps.map code).Nodup →
    (parametersLoop W code spec i ps l = .ok r ↔ ∃ new, r = ps ++ new ∧ (r.map code).Nodup ∧
      List.Forall₂ (fun x p => ∃ args kwargs, x = .quiet "Parameter".toList args kwargs ∧ is args kwargs p) l new)
  | [], i, ps, r, _, _, hn => by
    unfold parametersLoop
    constructor
    · intro h; injection h with h; subst h; exact ⟨[], by simp, hn, .nil⟩
    · rintro ⟨new, rfl, _, h⟩
      cases h
      simp
  | x :: l, i, ps, r, hkw, hl, hn => by
    obtain ⟨args, kwargs, rfl⟩ := hl x (List.mem_cons_self ..)
    have hs1 := hs args kwargs (hkw _ _ _ (List.mem_cons_self ..))
    have ih := fun ps r => parametersLoop_ok (code := code) hs l (i + 1) ps r (fun c a k h => hkw c a k (List.mem_cons_of_mem _ h)) (fun x hx => hl x (List.mem_cons_of_mem _ hx))
    unfold parametersLoop
    cases hp : spec args kwargs with
    | error e =>
      dsimp only
      constructor
      · intro h
        cases hk : parameterKey W i args kwargs with
        | ok k => rw [hk] at h; cases h
        | error e => rw [hk] at h; cases h
      · rintro ⟨new, -, -, h⟩
        cases h with
        | cons h _ =>
          obtain ⟨a, k, h1, h2⟩ := h
          injection h1 with _ h1 h1'
          subst h1 h1'
          rw [(hs1 _).2 h2] at hp; cases hp
    | ok p =>
      dsimp only
      have hp' := (hs1 p).1 hp
      split
      · rename_i hdup
        refine ⟨nofun, ?_⟩
        rintro ⟨new, rfl, hnn, h⟩
        cases h with
        | cons h _ =>
          obtain ⟨a, k, h1, h2⟩ := h
          injection h1 with _ h1 h1'
          subst h1 h1'
          rw [(hs1 _).2 h2] at hp; injection hp with hp
          subst hp
          rw [List.map_append, List.nodup_append] at hnn
          exact absurd rfl (hnn.2.2 _ hdup _ (by simp))
      · rename_i hnd
        rw [ih]
        · constructor
          · rintro ⟨new, rfl, h1, h2⟩
            exact ⟨p :: new, by simp, h1, .cons ⟨_, _, rfl, hp'⟩ h2⟩
          · rintro ⟨new, rfl, h1, h2⟩
            cases h2 with
            | cons h h' =>
              obtain ⟨a, k, g1, g2⟩ := h
              injection g1 with _ g1 g1'
              subst g1 g1'
              rw [(hs1 _).2 g2] at hp; injection hp with hp
              subst hp
              exact ⟨_, by simp, h1, h'⟩
        · rw [List.map_append, List.nodup_append]
          refine ⟨hn, by simp, ?_⟩
          intro a ha b hb hab
          simp only [List.map_cons, List.map_nil, List.mem_singleton] at hb
          subst hb hab
          exact hnd ha

/-! ### The common part -/

theorem globals_nodup_cem : ((globalSettings ++ cemSettings W T).map Setting.name).Nodup := by
  show (["description".toList, "board_size".toList, "komi".toList, "handicap".toList, "handicap_style".toList, "move_limit".toList, "scorer".toList,
    "internal_scorer_handicap_compensation".toList, "candidate_colour".toList, "batch_size".toList, "samples_per_generation".toList, "number_of_generations".toList,
    "elite_proportion".toList, "step_size".toList] : List Str).Nodup
  decide +kernel

theorem globals_nodup_mcts : ((globalSettings ++ mctsSettings W T).map Setting.name).Nodup := by
  show (["description".toList, "board_size".toList, "komi".toList, "handicap".toList, "handicap_style".toList, "move_limit".toList, "scorer".toList,
    "internal_scorer_handicap_compensation".toList, "number_of_games".toList, "candidate_colour".toList, "log_tree_to_history_period".toList, "summary_spec".toList,
    "number_of_running_simulations_to_show".toList] : List Str).Nodup
  decide +kernel

theorem gameSettings_noKey : ∀ s ∈ gameSettings W, NoKeyError s :=
  fun s hs => matchupSettings_noKey W s (List.mem_append_left _ hs)

theorem globals_noKey_cem : ∀ s ∈ globalSettings ++ cemSettings W T, NoKeyError s := by
  intro s hs
  rcases List.mem_append.1 hs with hs | hs
  · exact globalSettings_noKey s hs
  rcases List.mem_append.1 hs with hs | hs
  · exact gameSettings_noKey s hs
  simp only [List.mem_cons, List.not_mem_nil, or_false] at hs
  rcases hs with rfl | rfl | rfl | rfl | rfl | rfl
  · exact sv_noKey interprets_colour
  · exact sv_noKey interprets_positive
  · exact sv_noKey interprets_positive
  · exact sv_noKey interprets_positive
  · exact float_noKey
  · exact float_noKey

theorem globals_noKey_mcts : ∀ s ∈ globalSettings ++ mctsSettings W T, NoKeyError s := by
  intro s hs
  rcases List.mem_append.1 hs with hs | hs
  · exact globalSettings_noKey s hs
  rcases List.mem_append.1 hs with hs | hs
  · exact gameSettings_noKey s hs
  simp only [List.mem_cons, List.not_mem_nil, or_false] at hs
  rcases hs with rfl | rfl | rfl | rfl | rfl
  · exact sv_noKey (interprets_none interprets_int)
  · exact sv_noKey interprets_colour
  · exact sv_noKey (interprets_none interprets_positive)
  · exact sv_noKey interprets_ints
  · exact sv_noKey interprets_int

theorem specials_nodup : ((tunerSpecials W T).map Setting.name).Nodup := by
  show (["opponent".toList, "parameters".toList, "make_candidate".toList] : List Str).Nodup
  decide +kernel

theorem specials_noKey : ∀ s ∈ tunerSpecials W T, NoKeyError s := by
  intro s hs
  simp only [tunerSpecials, List.mem_cons, List.not_mem_nil, or_false] at hs
  rcases hs with rfl | rfl | rfl
  · exact sv_noKey interprets_identifier
  · exact sv_noKey interprets_configs
  · exact sv_noKey interprets_callable

theorem tree_nodup : ((treeSettings W).map Setting.name).Nodup := by
  show (["max_depth".toList, "exploration_coefficient".toList, "initial_visits".toList, "initial_wins".toList] : List Str).Nodup
  decide +kernel

theorem tree_noKey : ∀ s ∈ treeSettings W, NoKeyError s := by
  intro s hs
  simp only [treeSettings, List.mem_cons, List.not_mem_nil, or_false] at hs
  rcases hs with rfl | rfl | rfl | rfl
  · exact sv_noKey interprets_positive
  · exact float_noKey
  · exact sv_noKey interprets_positive
  · exact sv_noKey interprets_positive

/-- The players and the description are those of any competition. -/
theorem initWith_iff {base : Option Str} {settings : List Setting} (hn : ((globalSettings ++ settings).map Setting.name).Nodup)
    (hk : ∀ s ∈ globalSettings ++ settings, NoKeyError s) {d : List (Str × SVal)} {players : List (Str × Gtp.JobPlayer)} {description : Option Str} :
    initWith W base settings config = .ok (d, players) ∧ optStrOf d "description" = .ok description ↔
    loadSettings W config true false (globalSettings ++ settings) [] = .ok d ∧ initCompetition W base config = .ok (description, players) := by
  have hdesc : ∀ {d}, loadSettings W config true false (globalSettings ++ settings) [] = .ok d →
      ∃ g, loadSettings W config true false globalSettings [] = .ok g ∧ optStrOf g "description" = optStrOf d "description" := by
    intro d hd
    have h := hd
    rw [loadSettings_append] at h
    cases hg : loadSettings W config true false globalSettings [] with
    | error e => rw [hg] at h; cases h
    | ok g =>
      refine ⟨g, rfl, ?_⟩
      have m : ({ name := "description".toList, interpreter := sv (allowNone interpretUtf8Stripped) (optVal .str), default := (some none).map (optVal .str) } : Setting) ∈ globalSettings :=
        List.mem_cons_self ..
      have e : ∀ y, optStrOf g "description" = .ok y ↔ optStrOf d "description" = .ok y := by
        intro y
        rw [reads_optStr (by simp [globalSettings]) globalSettings_noKey hg (interprets_none interprets_utf8_stripped).1 m,
          reads_optStr hn hk hd (interprets_none interprets_utf8_stripped).1 (List.mem_append_left _ m)]
      obtain ⟨x, hx, _⟩ := reads (by simp [globalSettings]) globalSettings_noKey hg (interprets_none interprets_utf8_stripped).1 optStr_inj m
      have : optStrOf g "description" = .ok x := by
        unfold optStrOf
        rw [hx]
        cases x <;> rfl
      rw [this, (e x).1 this]
  unfold initWith initCompetition
  simp only [bind_ok, toControl_ok]
  constructor
  · rintro ⟨⟨d', hd, sp, hsp, cs, hcs, ps, hps, h⟩, ho⟩
    injection h with h; injection h with h h'
    subst h h'
    obtain ⟨g, hg, he⟩ := hdesc hd
    exact ⟨hd, g, hg, description, by rw [he]; exact ho, sp, hsp, cs, hcs, _, hps, rfl⟩
  · rintro ⟨hd, g, hg, desc, ho, sp, hsp, cs, hcs, ps, hps, h⟩
    injection h with h; injection h with h h'
    subst h h'
    obtain ⟨g', hg', he⟩ := hdesc hd
    rw [hg] at hg'; injection hg' with hg'; subst hg'
    exact ⟨⟨d, hd, sp, hsp, cs, hcs, _, hps, rfl⟩, by rw [← he]; exact ho⟩

theorem game_mem {settings : List Setting} {s : Setting} (h : s ∈ gameSettings W) : s ∈ globalSettings ++ (gameSettings W ++ settings) :=
  List.mem_append_right _ (List.mem_append_left _ h)

/-- The settings of the games. -/
theorem gameRules_iff {settings : List Setting} (hn : ((globalSettings ++ (gameSettings W ++ settings)).map Setting.name).Nodup)
    (hk : ∀ s ∈ globalSettings ++ (gameSettings W ++ settings), NoKeyError s) {d : List (Str × SVal)}
    (hd : loadSettings W config true false (globalSettings ++ (gameSettings W ++ settings)) [] = .ok d) {r : GameRules} :
    gameRules d = .ok r ∧ validateHandicap r.handicap r.handicapStyle r.boardSize = .ok () ↔ GameRulesOf W (fun n => config.lookup n) r := by
  have hm : ∀ k, ∀ {s}, (gameSettings W)[k]? = some s → s ∈ globalSettings ++ (gameSettings W ++ settings) := fun k {s} h => game_mem (mem_at k h)
  have m0 := hm 0 (s := { name := "board_size".toList, interpreter := sv interpretBoardSize .int, default := (none : Option Int).map .int }) rfl
  have m1 := hm 1 (s := { name := "komi".toList, interpreter := sv (interpretFloat W) .float, default := (none : Option Num).map .float }) rfl
  have m2 := hm 2 (s := { name := "handicap".toList, interpreter := sv (allowNone interpretInt) (optVal .int), default := (some none).map (optVal .int) }) rfl
  have m3 := hm 3 (s := { name := "handicap_style".toList, interpreter := sv (interpretEnum ["fixed".toList, "free".toList]) .str, default := (some "fixed".toList).map .str }) rfl
  have m4 := hm 4 (s := { name := "move_limit".toList, interpreter := sv interpretPositiveInt .int, default := (some 1000).map .int }) rfl
  have m5 := hm 5 (s := { name := "scorer".toList, interpreter := sv (interpretEnum ["internal".toList, "players".toList]) .str, default := (some "players".toList).map .str }) rfl
  have m6 := hm 6 (s := { name := "internal_scorer_handicap_compensation".toList, interpreter := sv (interpretEnum ["no".toList, "full".toList, "short".toList]) .str, default := (some "full".toList).map .str }) rfl
  have r0 := reads_int hn hk hd interprets_size.1 m0
  have r1 := reads_float hn hk hd interprets_float m1
  have r2 := reads_optInt hn hk hd (interprets_none interprets_int).1 m2
  have r3 := reads_str hn hk hd (interprets_enum _).1 m3
  have r4 := reads_int hn hk hd interprets_positive.1 m4
  have r5 := reads_str hn hk hd (interprets_enum _).1 m5
  have r6 := reads_str hn hk hd (interprets_enum _).1 m6
  have size : ∀ {n}, SettingIs W (fun n => config.lookup n) "board_size" IsSize none n → 2 ≤ n ∧ n ≤ 25 := by
    rintro n (⟨v, _, h⟩ | ⟨_, h⟩)
    · exact h.2
    · cases h
  unfold gameRules
  simp only [bind_ok]
  constructor
  · rintro ⟨⟨a0, h0, a1, h1, a2, h2, a3, h3, a4, h4, a5, h5, a6, h6, h⟩, hh⟩
    injection h with h; subst h
    exact ⟨(r0 _).1 h0, (r1 _).1 h1, (r2 _).1 h2, (r3 _).1 h3, (r4 _).1 h4, (r5 _).1 h5, (r6 _).1 h6, (validateHandicap_ok (size ((r0 _).1 h0))).1 hh⟩
  · intro h
    exact ⟨⟨_, (r0 _).2 h.boardSize, _, (r1 _).2 h.komi, _, (r2 _).2 h.handicap, _, (r3 _).2 h.handicapStyle, _, (r4 _).2 h.moveLimit, _, (r5 _).2 h.scorer,
      _, (r6 _).2 h.compensation, rfl⟩, (validateHandicap_ok (size h.boardSize)).2 h.allowed⟩

/-- They all have values. -/
theorem game_gets {r : GameRules} (h : GameRulesOf W (fun n => config.lookup n) r) : ∀ s ∈ gameSettings W, ∃ x, Gets W config true s x := by
  intro s hs
  simp only [gameSettings, List.mem_cons, List.not_mem_nil, or_false] at hs
  rcases hs with rfl | rfl | rfl | rfl | rfl | rfl | rfl
  · exact ⟨_, (setting_iff interprets_size.1 int_inj (default := none)).2 h.boardSize⟩
  · exact ⟨_, (setting_iff interprets_float float_inj (default := none)).2 h.komi⟩
  · exact ⟨_, (setting_iff (interprets_none interprets_int).1 optInt_inj (default := some none)).2 h.handicap⟩
  · exact ⟨_, (setting_iff (interprets_enum ["fixed".toList, "free".toList]).1 str_inj (default := some "fixed".toList)).2 h.handicapStyle⟩
  · exact ⟨_, (setting_iff interprets_positive.1 int_inj (default := some 1000)).2 h.moveLimit⟩
  · exact ⟨_, (setting_iff (interprets_enum ["internal".toList, "players".toList]).1 str_inj (default := some "players".toList)).2 h.scorer⟩
  · exact ⟨_, (setting_iff (interprets_enum ["no".toList, "full".toList, "short".toList]).1 str_inj (default := some "full".toList)).2 h.compensation⟩

/-- The description has a value. -/
theorem description_gets {base : Option Str} {x : Option Str × List (Str × Gtp.JobPlayer)} (h : initCompetition W base config = .ok x) :
    ∀ s ∈ globalSettings, ∃ x, Gets W config true s x := by
  unfold initCompetition at h
  simp only [bind_ok, toControl_ok] at h
  obtain ⟨g, hg, _⟩ := h
  exact (load_iff (by simp [globalSettings]) globalSettings_noKey).1 ⟨g, hg⟩

theorem findOpponent_ok {players : List (Str × Gtp.JobPlayer)} {code : Str} {p : Gtp.JobPlayer} : findOpponent players code = .ok p ↔ players.lookup code = some p := by
  unfold findOpponent
  cases players.lookup code with
  | none => exact ⟨nofun, nofun⟩
  | some q => exact ⟨fun h => by injection h with h; rw [h], fun h => by injection h with h; rw [h]⟩

/-- The opponent, the parameters and the maker. -/
theorem specials_iff {players : List (Str × Gtp.JobPlayer)} {opp : Gtp.JobPlayer} {configs : List Val} {maker : Val} :
    (∃ specials, loadSettings W config true false (tunerSpecials W T) [] = .ok specials ∧ (∃ o, strOf specials "opponent" = .ok o ∧ findOpponent players o = .ok opp) ∧
      valsOf specials "parameters" = .ok configs ∧ fnOf specials "make_candidate" = .ok maker) ↔
    (∃ o, SettingIs W (fun n => config.lookup n) "opponent" IsIdent none o ∧ players.lookup o = some opp) ∧
    (∃ v, Has W config "parameters".toList v ∧ W.listOf v = some configs ∧ ∀ x ∈ configs, ∃ args kwargs, x = .quiet "Parameter".toList args kwargs) ∧
    SettingIs W (fun n => config.lookup n) "make_candidate" (IsFn T) none maker := by
  have hn := specials_nodup (W := W) (T := T)
  have hk := specials_noKey (W := W) (T := T)
  have hm : ∀ k, ∀ {s}, (tunerSpecials W T)[k]? = some s → s ∈ tunerSpecials W T := fun k => mem_at k
  have m0 := hm 0 (s := { name := "opponent".toList, interpreter := sv interpretIdentifier .str, default := (none : Option Str).map .str }) rfl
  have m1 := hm 1 (s := { name := "parameters".toList, interpreter := sv (interpretConfigs W "Parameter".toList false) .vals, default := (none : Option (List Val)).map .vals }) rfl
  have m2 := hm 2 (s := { name := "make_candidate".toList, interpreter := sv (interpretCallable T) fnVal, default := (none : Option Val).map fnVal }) rfl
  have params : ∀ configs, SettingIs W (fun n => config.lookup n) "parameters" (fun v l => W.listOf v = some l ∧ ∀ x ∈ l, ∃ args kwargs, x = .quiet "Parameter".toList args kwargs) none configs ↔
      ∃ v, Has W config "parameters".toList v ∧ W.listOf v = some configs ∧ ∀ x ∈ configs, ∃ args kwargs, x = .quiet "Parameter".toList args kwargs := by
    intro configs
    constructor
    · rintro (h | ⟨_, h⟩)
      · exact h
      · cases h
    · exact .inl
  rw [← params]
  constructor
  · rintro ⟨d, hd, ⟨o, h0, h1⟩, h2, h3⟩
    rw [reads_str hn hk hd interprets_identifier.1 m0] at h0
    rw [reads_vals hn hk hd interprets_configs.1 m1] at h2
    rw [reads_fn hn hk hd interprets_callable.1 m2] at h3
    exact ⟨⟨o, h0, findOpponent_ok.1 h1⟩, h2, h3⟩
  · rintro ⟨⟨o, h0, h1⟩, h2, h3⟩
    obtain ⟨d, hd⟩ := (load_iff (W := W) (config := config) hn hk).2 (by
      intro s hs
      simp only [tunerSpecials, List.mem_cons, List.not_mem_nil, or_false] at hs
      rcases hs with rfl | rfl | rfl
      · exact ⟨_, (setting_iff interprets_identifier.1 str_inj (default := none)).2 h0⟩
      · exact ⟨_, (setting_iff interprets_configs.1 vals_inj (default := none)).2 h2⟩
      · exact ⟨_, (setting_iff interprets_callable.1 fn_inj (default := none)).2 h3⟩)
    exact ⟨d, hd, ⟨o, (reads_str hn hk hd interprets_identifier.1 m0 _).2 h0, findOpponent_ok.2 h1⟩, (reads_vals hn hk hd interprets_configs.1 m1 _).2 h2,
      (reads_fn hn hk hd interprets_callable.1 m2 _).2 h3⟩

/-- The list of parameters. -/
theorem parameters_iff {α : Type} {code : α → Str} {spec : List Val → List (Str × Val) → Except Err α} {is : List Val → List (Str × Val) → α → Prop}
    (hs : ∀ args kwargs, (kwargs.map Prod.fst).Nodup → ∀ p, spec args kwargs = .ok p ↔ is args kwargs p) (hkw : ∀ v l, W.listOf v = some l → Kwargs l) {ps : List α} :
    (∃ configs, (∃ v, Has W config "parameters".toList v ∧ W.listOf v = some configs ∧ ∀ x ∈ configs, ∃ args kwargs, x = .quiet "Parameter".toList args kwargs) ∧
      configs.isEmpty = false ∧ parametersLoop W code spec 0 [] configs = .ok ps) ↔ ParametersOf W config is code ps := by
  unfold ParametersOf
  constructor
  · rintro ⟨l, ⟨v, h1, h2, h3⟩, h4, h5⟩
    obtain ⟨new, rfl, h6, h7⟩ := (parametersLoop_ok hs l 0 [] ps (hkw v l h2) h3 (by simp)).1 h5
    refine ⟨v, l, h1, h2, ?_, h6, h7⟩
    rintro rfl
    cases h4
  · rintro ⟨v, l, h1, h2, h3, h4, h5⟩
    have h6 : ∀ x ∈ l, ∃ args kwargs, x = .quiet "Parameter".toList args kwargs := by
      clear h1 h2 h3 h4
      intro x hx
      induction h5 with
      | nil => cases hx
      | cons h _ ih =>
        obtain ⟨a, k, h, _⟩ := h
        rcases List.mem_cons.1 hx with rfl | hx
        · exact ⟨a, k, h⟩
        · exact ih hx
    refine ⟨l, ⟨v, h1, h2, h6⟩, ?_, (parametersLoop_ok hs l 0 [] ps (hkw v l h2) h6 (by simp)).2 ⟨ps, rfl, h4, h5⟩⟩
    cases l with
    | nil => exact absurd rfl h3
    | cons _ _ => rfl

end

/-- C83: a cross-entropy tuner's control file is accepted exactly when it gives such a tuner. -/
theorem C83_cem (W : World) (T : Fns) (hkw : ∀ v l, W.listOf v = some l → Kwargs l) (base : Option Str) (code : Str) (config : List (Str × Val)) (t : CemTuner) :
    initCem W T base code config = .ok t ↔ CemOf W T base code config t := by
  have hn := globals_nodup_cem (W := W) (T := T)
  have hk := globals_noKey_cem (W := W) (T := T)
  have hm : ∀ k, ∀ {s}, (globalSettings ++ cemSettings W T)[k]? = some s → s ∈ globalSettings ++ cemSettings W T := fun k => mem_at k
  have m0 := hm 8 (s := { name := "candidate_colour".toList, interpreter := sv (interpretCandidateColour T) colourVal, default := (none : Option (Option Colour)).map colourVal }) rfl
  have m1 := hm 9 (s := { name := "batch_size".toList, interpreter := sv interpretPositiveInt .int, default := (none : Option Int).map .int }) rfl
  have m2 := hm 10 (s := { name := "samples_per_generation".toList, interpreter := sv interpretPositiveInt .int, default := (none : Option Int).map .int }) rfl
  have m3 := hm 11 (s := { name := "number_of_generations".toList, interpreter := sv interpretPositiveInt .int, default := (none : Option Int).map .int }) rfl
  have m4 := hm 12 (s := { name := "elite_proportion".toList, interpreter := sv (interpretFloat W) .float, default := (none : Option Num).map .float }) rfl
  have m5 := hm 13 (s := { name := "step_size".toList, interpreter := sv (interpretFloat W) .float, default := (none : Option Num).map .float }) rfl
  have prop : ∀ x, (!Num.isProportion x) = false ↔ Proportion x := by
    intro x
    rw [Bool.not_eq_false', proportion_iff]
  unfold initCem
  simp only [bind_ok, toControl_ok, refuseIf_ok, prop]
  constructor
  · rintro ⟨⟨d, players⟩, h0, desc, h1, rules, h2, colour, h3, batch, h4, samples, h5, gens, h6, elite, h7, step, h8, _, h9, -, h10, -, h11, sp, h12, o, h13, opp, h14, cs, h15,
      -, h16, ps, h17, maker, h18, h⟩
    injection h with h; subst h
    dsimp only at h1 h2 h3 h4 h5 h6 h7 h8
    obtain ⟨hd, hi⟩ := (initWith_iff hn hk).1 ⟨h0, h1⟩
    have hr := (gameRules_iff hn hk hd).1 ⟨h2, h9⟩
    rw [reads_colour hn hk hd interprets_colour.1 m0] at h3
    rw [reads_int hn hk hd interprets_positive.1 m1] at h4
    rw [reads_int hn hk hd interprets_positive.1 m2] at h5
    rw [reads_int hn hk hd interprets_positive.1 m3] at h6
    rw [reads_float hn hk hd interprets_float m4] at h7
    rw [reads_float hn hk hd interprets_float m5] at h8
    obtain ⟨s1, s2, s3⟩ := specials_iff.1 ⟨sp, h12, ⟨o, h13, h14⟩, h15, h18⟩
    exact ⟨⟨rfl, hi, hr, h3, s1, s3⟩, h4, h5, h6, h7, h10, h8, h11, (parameters_iff (C83_cem_parameter W T) hkw).1 ⟨cs, s2, h16, h17⟩⟩
  · intro h
    obtain ⟨d, hd⟩ := (load_iff (W := W) (config := config) hn hk).2 (by
      intro s hs
      rcases List.mem_append.1 hs with hs | hs
      · exact description_gets h.tuner.competition s hs
      rcases List.mem_append.1 hs with hs | hs
      · exact game_gets h.tuner.rules s hs
      simp only [List.mem_cons, List.not_mem_nil, or_false] at hs
      rcases hs with rfl | rfl | rfl | rfl | rfl | rfl
      · exact ⟨_, (setting_iff interprets_colour.1 colour_inj (default := none)).2 h.tuner.colour⟩
      · exact ⟨_, (setting_iff interprets_positive.1 int_inj (default := none)).2 h.batchSize⟩
      · exact ⟨_, (setting_iff interprets_positive.1 int_inj (default := none)).2 h.samples⟩
      · exact ⟨_, (setting_iff interprets_positive.1 int_inj (default := none)).2 h.generations⟩
      · exact ⟨_, (setting_iff interprets_float float_inj (default := none)).2 h.elite⟩
      · exact ⟨_, (setting_iff interprets_float float_inj (default := none)).2 h.step⟩)
    obtain ⟨h0, h1⟩ := (initWith_iff hn hk).2 ⟨hd, h.tuner.competition⟩
    obtain ⟨h2, h9⟩ := (gameRules_iff hn hk hd).2 h.tuner.rules
    obtain ⟨cs, s2, h16, h17⟩ := (parameters_iff (C83_cem_parameter W T) hkw).2 h.parameters
    obtain ⟨sp, h12, ⟨o, h13, h14⟩, h15, h18⟩ := specials_iff.2 ⟨h.tuner.opponent, s2, h.tuner.maker⟩
    refine ⟨(d, t.base.players), h0, _, h1, _, h2, _, (reads_colour hn hk hd interprets_colour.1 m0 _).2 h.tuner.colour, _, (reads_int hn hk hd interprets_positive.1 m1 _).2 h.batchSize,
      _, (reads_int hn hk hd interprets_positive.1 m2 _).2 h.samples, _, (reads_int hn hk hd interprets_positive.1 m3 _).2 h.generations,
      _, (reads_float hn hk hd interprets_float m4 _).2 h.elite, _, (reads_float hn hk hd interprets_float m5 _).2 h.step, (), h9, (), h.eliteRange, (), h.stepRange, sp, h12, o, h13, _, h14, cs, h15,
      (), h16, _, h17, _, h18, ?_⟩
    rw [← h.tuner.code]
    rfl

theorem checkKomi_ok {x : Num} {u : Unit} : checkKomi x = .ok u ↔ ∃ q, x = .fin q ∧ ∀ n : Int, q ≠ n := by
  unfold checkKomi
  cases x with
  | fin q =>
    dsimp only
    split
    · rename_i h
      refine ⟨nofun, ?_⟩
      rintro ⟨q', h', h''⟩
      injection h' with h'; subst h'
      exact absurd h (h'' _)
    · rename_i h
      refine ⟨fun _ => ⟨q, rfl, ?_⟩, fun _ => rfl⟩
      rintro n rfl
      exact h (by rw [Rat.floor_intCast])
  | inf => exact ⟨nofun, fun ⟨_, h, _⟩ => (nomatch h)⟩
  | negInf => exact ⟨nofun, fun ⟨_, h, _⟩ => (nomatch h)⟩
  | nan => exact ⟨nofun, fun ⟨_, h, _⟩ => (nomatch h)⟩

/-- C83: a tree-search tuner's control file is accepted exactly when it gives such a tuner. -/
theorem C83_mcts (W : World) (T : Fns) (hkw : ∀ v l, W.listOf v = some l → Kwargs l) (base : Option Str) (code : Str) (config : List (Str × Val)) (t : MctsTuner) :
    initMcts W T base code config = .ok t ↔ MctsOf W T base code config t := by
  have hn := globals_nodup_mcts (W := W) (T := T)
  have hk := globals_noKey_mcts (W := W) (T := T)
  have hm : ∀ k, ∀ {s}, (globalSettings ++ mctsSettings W T)[k]? = some s → s ∈ globalSettings ++ mctsSettings W T := fun k => mem_at k
  have m0 := hm 8 (s := { name := "number_of_games".toList, interpreter := sv (allowNone interpretInt) (optVal .int), default := (some none).map (optVal .int) }) rfl
  have m1 := hm 9 (s := { name := "candidate_colour".toList, interpreter := sv (interpretCandidateColour T) colourVal, default := (none : Option (Option Colour)).map colourVal }) rfl
  have m2 := hm 10 (s := { name := "log_tree_to_history_period".toList, interpreter := sv (allowNone interpretPositiveInt) (optVal .int), default := (some none).map (optVal .int) }) rfl
  have m3 := hm 11 (s := { name := "summary_spec".toList, interpreter := sv (interpretInts W) intsVal, default := (some [30]).map intsVal }) rfl
  have m4 := hm 12 (s := { name := "number_of_running_simulations_to_show".toList, interpreter := sv interpretInt .int, default := (some 12).map .int }) rfl
  have tn := tree_nodup (W := W)
  have tk := tree_noKey (W := W)
  have tm : ∀ k, ∀ {s}, (treeSettings W)[k]? = some s → s ∈ treeSettings W := fun k => mem_at k
  have t0 := tm 0 (s := { name := "max_depth".toList, interpreter := sv interpretPositiveInt .int, default := (some 1).map .int }) rfl
  have t1 := tm 1 (s := { name := "exploration_coefficient".toList, interpreter := sv (interpretFloat W) .float, default := (none : Option Num).map .float }) rfl
  have t2 := tm 2 (s := { name := "initial_visits".toList, interpreter := sv interpretPositiveInt .int, default := (none : Option Int).map .int }) rfl
  have t3 := tm 3 (s := { name := "initial_wins".toList, interpreter := sv interpretPositiveInt .int, default := (none : Option Int).map .int }) rfl
  unfold initMcts
  simp only [bind_ok, toControl_ok, refuseIf_ok, checkKomi_ok]
  constructor
  · rintro ⟨⟨d, players⟩, h0, desc, h1, rules, h2, games, h3, colour, h4, log, h5, summary, h6, show_, h7, -, h8, _, h9, sp, h12, o, h13, opp, h14, cs, h15,
      -, h16, ps, h17, maker, h18, tr, h19, depth, h20, expl, h21, visits, h22, wins, h23, h⟩
    injection h with h; subst h
    dsimp only at h1 h2 h3 h4 h5 h6 h7
    obtain ⟨hd, hi⟩ := (initWith_iff hn hk).1 ⟨h0, h1⟩
    have hr := (gameRules_iff hn hk hd).1 ⟨h2, h9⟩
    rw [reads_optInt hn hk hd (interprets_none interprets_int).1 m0] at h3
    rw [reads_colour hn hk hd interprets_colour.1 m1] at h4
    rw [reads_optInt hn hk hd (interprets_none interprets_positive).1 m2] at h5
    rw [reads_ints hn hk hd interprets_ints.1 m3] at h6
    rw [reads_int hn hk hd interprets_int.1 m4] at h7
    rw [reads_int tn tk h19 interprets_positive.1 t0] at h20
    rw [reads_float tn tk h19 interprets_float t1] at h21
    rw [reads_int tn tk h19 interprets_positive.1 t2] at h22
    rw [reads_int tn tk h19 interprets_positive.1 t3] at h23
    obtain ⟨s1, s2, s3⟩ := specials_iff.1 ⟨sp, h12, ⟨o, h13, h14⟩, h15, h18⟩
    exact ⟨⟨rfl, hi, hr, h4, s1, s3⟩, h8, h3, h5, h6, h7, (parameters_iff (C83_mcts_parameter W T) hkw).1 ⟨cs, s2, h16, h17⟩, h20, h21, h22, h23⟩
  · intro h
    obtain ⟨d, hd⟩ := (load_iff (W := W) (config := config) hn hk).2 (by
      intro s hs
      rcases List.mem_append.1 hs with hs | hs
      · exact description_gets h.tuner.competition s hs
      rcases List.mem_append.1 hs with hs | hs
      · exact game_gets h.tuner.rules s hs
      simp only [List.mem_cons, List.not_mem_nil, or_false] at hs
      rcases hs with rfl | rfl | rfl | rfl | rfl
      · exact ⟨_, (setting_iff (interprets_none interprets_int).1 optInt_inj (default := some none)).2 h.numberOfGames⟩
      · exact ⟨_, (setting_iff interprets_colour.1 colour_inj (default := none)).2 h.tuner.colour⟩
      · exact ⟨_, (setting_iff (interprets_none interprets_positive).1 optInt_inj (default := some none)).2 h.logPeriod⟩
      · exact ⟨_, (setting_iff interprets_ints.1 ints_inj (default := some [30])).2 h.summarySpec⟩
      · exact ⟨_, (setting_iff interprets_int.1 int_inj (default := some 12)).2 h.simulationsToShow⟩)
    obtain ⟨td, htd⟩ := (load_iff (W := W) (config := config) tn tk).2 (by
      intro s hs
      simp only [treeSettings, List.mem_cons, List.not_mem_nil, or_false] at hs
      rcases hs with rfl | rfl | rfl | rfl
      · exact ⟨_, (setting_iff interprets_positive.1 int_inj (default := some 1)).2 h.maxDepth⟩
      · exact ⟨_, (setting_iff interprets_float float_inj (default := none)).2 h.exploration⟩
      · exact ⟨_, (setting_iff interprets_positive.1 int_inj (default := none)).2 h.initialVisits⟩
      · exact ⟨_, (setting_iff interprets_positive.1 int_inj (default := none)).2 h.initialWins⟩)
    obtain ⟨h0, h1⟩ := (initWith_iff hn hk).2 ⟨hd, h.tuner.competition⟩
    obtain ⟨h2, h9⟩ := (gameRules_iff hn hk hd).2 h.tuner.rules
    obtain ⟨cs, s2, h16, h17⟩ := (parameters_iff (C83_mcts_parameter W T) hkw).2 h.parameters
    obtain ⟨sp, h12, ⟨o, h13, h14⟩, h15, h18⟩ := specials_iff.2 ⟨h.tuner.opponent, s2, h.tuner.maker⟩
    refine ⟨(d, t.base.players), h0, _, h1, _, h2, _, (reads_optInt hn hk hd (interprets_none interprets_int).1 m0 _).2 h.numberOfGames,
      _, (reads_colour hn hk hd interprets_colour.1 m1 _).2 h.tuner.colour, _, (reads_optInt hn hk hd (interprets_none interprets_positive).1 m2 _).2 h.logPeriod,
      _, (reads_ints hn hk hd interprets_ints.1 m3 _).2 h.summarySpec, _, (reads_int hn hk hd interprets_int.1 m4 _).2 h.simulationsToShow, (), h.fractional, (), h9, sp, h12, o, h13, _, h14, cs, h15,
      (), h16, _, h17, _, h18, td, htd, _, (reads_int tn tk htd interprets_positive.1 t0 _).2 h.maxDepth, _, (reads_float tn tk htd interprets_float t1 _).2 h.exploration,
      _, (reads_int tn tk htd interprets_positive.1 t2 _).2 h.initialVisits, _, (reads_int tn tk htd interprets_positive.1 t3 _).2 h.initialWins, ?_⟩
    rw [← h.tuner.code]
    rfl

/-! ### Errors -/

section
variable {W : World} {T : Fns} {config : List (Str × Val)}

theorem bind_error {α β : Type} {x : Except Err α} {f : α → Except Err β} {e : Err} : (x >>= f) = .error e ↔ x = .error e ∨ ∃ a, x = .ok a ∧ f a = .error e := by
  cases x with
  | error e' => exact ⟨fun h => .inl (by injection h with h; rw [h]), fun h => h.elim (fun h => by injection h with h; rw [h]; rfl) (fun ⟨_, h, _⟩ => (nomatch h))⟩
  | ok a => exact ⟨fun h => .inr ⟨a, rfl, h⟩, fun h => h.elim (fun h => (nomatch h)) (fun ⟨_, h, h'⟩ => by injection h with h; subst h; exact h')⟩

/-- A setting whose value is a whole number which is too big to be a float. -/
def TooBig (W : World) (config : List (Str × Val)) (names : List String) : Prop :=
  ∃ name ∈ names, ∃ v n, Has W config name.toList v ∧ IsWhole v n ∧ W.floatOf n = none

/-- Either all the interpreters' errors are ValueErrors, or it's a float. -/
theorem load_control {ss : List Setting} {names : List String} (hn : (ss.map Setting.name).Nodup) (hk : ∀ s ∈ ss, NoKeyError s)
    (hv : ∀ s ∈ ss, (∀ v e, s.interpreter v = .error e → e.kind = .value) ∨ ∃ name ∈ names, s.name = name.toList ∧ s.interpreter = sv (interpretFloat W) .float) {e : Err}
    (h : toControl (loadSettings W config true false ss []) = .error e) : e.kind = .controlFile ∨ TooBig W config names := by
  cases hl : loadSettings W config true false ss [] with
  | ok r => rw [hl] at h; cases h
  | error e' =>
    rw [hl] at h
    obtain ⟨pre, s, post, hs, _, h3⟩ := (C73_load_settings W config true false _ hn hk).2 e' hl
    rcases h3 with ⟨m, _, rfl⟩ | ⟨_, _, rfl⟩ | ⟨v, hv', h3, h4⟩
    · left; unfold toControl at h; simp only [if_true] at h; cases h; rfl
    · left; unfold toControl at h; simp only [if_true] at h; cases h; rfl
    · rcases hv s (by rw [hs]; simp) with g | ⟨name, g1, g2, g3⟩
      · exact absurd (g _ _ h3) h4
      · rw [g3] at h3
        obtain ⟨n, h5, h6⟩ := float_overflow h3 h4
        rw [g2] at hv'
        exact .inr ⟨name, g1, v, n, hv', h5, h6⟩

theorem game_errors {names : List String} (hc : "komi" ∈ names) : ∀ s ∈ globalSettings ++ gameSettings W,
    (∀ v e, s.interpreter v = .error e → e.kind = .value) ∨ ∃ name ∈ names, s.name = name.toList ∧ s.interpreter = sv (interpretFloat W) .float := by
  intro s hs
  simp only [globalSettings, gameSettings, List.cons_append, List.nil_append, List.mem_cons, List.not_mem_nil, or_false] at hs
  rcases hs with rfl | rfl | rfl | rfl | rfl | rfl | rfl | rfl
  · exact .inl fun _ _ h => sv_error (interprets_none interprets_utf8_stripped) h
  · exact .inl fun _ _ h => sv_error interprets_size h
  · exact .inr ⟨_, hc, rfl, rfl⟩
  · exact .inl fun _ _ h => sv_error (interprets_none interprets_int) h
  · exact .inl fun _ _ h => sv_error (interprets_enum _) h
  · exact .inl fun _ _ h => sv_error interprets_positive h
  · exact .inl fun _ _ h => sv_error (interprets_enum _) h
  · exact .inl fun _ _ h => sv_error (interprets_enum _) h

theorem initWith_error {base : Option Str} {settings : List Setting} {names : List String} (hc : "komi" ∈ names)
    (hn : ((globalSettings ++ (gameSettings W ++ settings)).map Setting.name).Nodup) (hk : ∀ s ∈ globalSettings ++ (gameSettings W ++ settings), NoKeyError s)
    (hv : ∀ s ∈ settings, (∀ v e, s.interpreter v = .error e → e.kind = .value) ∨ ∃ name ∈ names, s.name = name.toList ∧ s.interpreter = sv (interpretFloat W) .float) {e : Err}
    (h : initWith W base (gameSettings W ++ settings) config = .error e) : e.kind = .controlFile ∨ TooBig W config names := by
  unfold initWith at h
  simp only [bind_error] at h
  rcases h with h | ⟨d, hd, h⟩
  · refine load_control hn hk (fun s hs => ?_) h
    rw [← List.append_assoc] at hs
    rcases List.mem_append.1 hs with hs | hs
    · exact game_errors hc s hs
    · exact hv s hs
  · left
    rw [toControl_ok] at hd
    obtain ⟨desc, hdesc⟩ : ∃ y, optStrOf d "description" = .ok y := by
      have m : ({ name := "description".toList, interpreter := sv (allowNone interpretUtf8Stripped) (optVal .str), default := (some none).map (optVal .str) } : Setting) ∈
        globalSettings ++ (gameSettings W ++ settings) := List.mem_append_left _ (List.mem_cons_self ..)
      obtain ⟨x, _, hx⟩ := reads hn hk hd (interprets_none interprets_utf8_stripped).1 optStr_inj m
      exact ⟨x, (reads_optStr hn hk hd (interprets_none interprets_utf8_stripped).1 m x).2 ((hx x).2 rfl)⟩
    refine C74_errors W base config e ?_
    cases hi : initCompetition W base config with
    | ok x =>
      exfalso
      have hi' := hi
      unfold initCompetition at hi'
      simp only [bind_ok, toControl_ok] at hi'
      obtain ⟨_, _, _, _, sp, hsp, cs, hcs, ps, hps, _⟩ := hi'
      rw [hsp] at h
      simp only [toControl_ok.2 rfl, reduceCtorEq, false_or] at h
      obtain ⟨sp', h1, h⟩ := h
      injection h1 with h1; subst h1
      rw [hcs] at h
      simp only [reduceCtorEq, false_or] at h
      obtain ⟨cs', h1, h⟩ := h
      injection h1 with h1; subst h1
      rw [hps] at h
      rcases h with h | ⟨_, _, h⟩
      · cases h
      · cases h
    | error e' =>
      have hi' := hi
      unfold initCompetition at hi'
      simp only [bind_error] at hi'
      have hg : ∃ g, loadSettings W config true false globalSettings [] = .ok g := by
        have h := hd
        rw [loadSettings_append] at h
        cases hg : loadSettings W config true false globalSettings [] with
        | error e => rw [hg] at h; cases h
        | ok g => exact ⟨g, rfl⟩
      obtain ⟨g, hg⟩ := hg
      have m : ({ name := "description".toList, interpreter := sv (allowNone interpretUtf8Stripped) (optVal .str), default := (some none).map (optVal .str) } : Setting) ∈ globalSettings :=
        List.mem_cons_self ..
      obtain ⟨x, _, hx⟩ := reads (by simp [globalSettings]) globalSettings_noKey hg (interprets_none interprets_utf8_stripped).1 optStr_inj m
      have hx' := (reads_optStr (by simp [globalSettings]) globalSettings_noKey hg (interprets_none interprets_utf8_stripped).1 m x).2 ((hx x).2 rfl)
      rcases hi' with hi' | ⟨g', hg', hi'⟩
      · rw [hg] at hi'; cases hi'
      rw [toControl_ok, hg] at hg'; injection hg' with hg'; subst hg'
      rcases hi' with hi' | ⟨_, _, hi'⟩
      · rw [hx'] at hi'; cases hi'
      rcases h with h | ⟨sp, hsp, h⟩
      · rcases hi' with hi' | ⟨sp', hsp', _⟩
        · rw [h] at hi'; injection hi' with hi'; rw [hi']
        · rw [h] at hsp'; cases hsp'
      rcases hi' with hi' | ⟨sp', hsp', hi'⟩
      · rw [hsp] at hi'; cases hi'
      rw [hsp] at hsp'; injection hsp' with hsp'; subst hsp'
      rcases h with h | ⟨cs, hcs, h⟩
      · rcases hi' with hi' | ⟨_, hsp', _⟩
        · rw [h] at hi'; injection hi' with hi'; rw [hi']
        · rw [h] at hsp'; cases hsp'
      rcases hi' with hi' | ⟨cs', hcs', hi'⟩
      · rw [hcs] at hi'; cases hi'
      rw [hcs] at hcs'; injection hcs' with hcs'; subst hcs'
      rcases h with h | ⟨ps, hps, h⟩
      · rcases hi' with hi' | ⟨_, hsp', _⟩
        · rw [h] at hi'; injection hi' with hi'; rw [hi']
        · rw [h] at hsp'; cases hsp'
      · cases h

theorem parameterKey_error {i : Nat} {args : List Val} {kwargs : List (Str × Val)} {e : Err} (h : parameterKey W i args kwargs = .error e) : ∃ v, showOf W v = .error e := by
  unfold parameterKey at h
  split at h
  · cases h
  · exact ⟨_, h⟩
  · split at h
    · cases h
    · cases h
    · exact ⟨_, h⟩

theorem parametersLoop_error {α : Type} {code : α → Str} {spec : List Val → List (Str × Val) → Except Err α} : ∀ (l : List Val) (i : Nat) (ps : List α) (e : Err),
    (∀ x ∈ l, ∃ args kwargs, x = .quiet "Parameter".toList args kwargs) → parametersLoop W code spec i ps l = .error e → e.kind = .controlFile ∨ ∃ v, showOf W v = .error e
  | [], i, ps, e, _, h => by cases h
  | x :: l, i, ps, e, hl, h => by
    obtain ⟨args, kwargs, rfl⟩ := hl x (List.mem_cons_self ..)
    unfold parametersLoop at h
    cases hp : spec args kwargs with
    | error e' =>
      rw [hp] at h
      dsimp only at h
      cases hk : parameterKey W i args kwargs with
      | ok k => rw [hk] at h; injection h with h; subst h; exact .inl rfl
      | error e'' => rw [hk] at h; injection h with h; subst h; exact .inr (parameterKey_error hk)
    | ok p =>
      rw [hp] at h
      dsimp only at h
      split at h
      · injection h with h; subst h; exact .inl rfl
      · exact parametersLoop_error l _ _ e (fun x hx => hl x (List.mem_cons_of_mem _ hx)) h

theorem refuseIf_error {b : Bool} {e e' : Err} (h : refuseIf b e = .error e') : e' = e := by
  unfold refuseIf at h
  split at h
  · injection h with h; exact h.symm
  · cases h

/-- The readers don't fail. -/
theorem never {α : Type} {β : Prop} {f : Except Err α} {g : α → SVal} {d : List (Str × SVal)} {name : Str} {P : α → Prop} (h : ∃ x, d.lookup name = some (g x) ∧ ∀ y, P y ↔ y = x)
    (hf : ∀ y, f = .ok y ↔ P y) {e : Err} (he : f = .error e) : β := by
  exfalso
  obtain ⟨x, _, hx⟩ := h
  rw [(hf x).2 ((hx x).2 rfl)] at he
  cases he

theorem gameRules_never {settings : List Setting} (hn : ((globalSettings ++ (gameSettings W ++ settings)).map Setting.name).Nodup)
    (hk : ∀ s ∈ globalSettings ++ (gameSettings W ++ settings), NoKeyError s) {d : List (Str × SVal)}
    (hd : loadSettings W config true false (globalSettings ++ (gameSettings W ++ settings)) [] = .ok d) :
    (∀ e, gameRules d ≠ .error e) ∧ ∀ r, gameRules d = .ok r → 2 ≤ r.boardSize ∧ r.boardSize ≤ 25 := by
  have hm : ∀ k, ∀ {s}, (gameSettings W)[k]? = some s → s ∈ globalSettings ++ (gameSettings W ++ settings) := fun k {s} h => game_mem (mem_at k h)
  have m0 := hm 0 (s := { name := "board_size".toList, interpreter := sv interpretBoardSize .int, default := (none : Option Int).map .int }) rfl
  have m1 := hm 1 (s := { name := "komi".toList, interpreter := sv (interpretFloat W) .float, default := (none : Option Num).map .float }) rfl
  have m2 := hm 2 (s := { name := "handicap".toList, interpreter := sv (allowNone interpretInt) (optVal .int), default := (some none).map (optVal .int) }) rfl
  have m3 := hm 3 (s := { name := "handicap_style".toList, interpreter := sv (interpretEnum ["fixed".toList, "free".toList]) .str, default := (some "fixed".toList).map .str }) rfl
  have m4 := hm 4 (s := { name := "move_limit".toList, interpreter := sv interpretPositiveInt .int, default := (some 1000).map .int }) rfl
  have m5 := hm 5 (s := { name := "scorer".toList, interpreter := sv (interpretEnum ["internal".toList, "players".toList]) .str, default := (some "players".toList).map .str }) rfl
  have m6 := hm 6 (s := { name := "internal_scorer_handicap_compensation".toList, interpreter := sv (interpretEnum ["no".toList, "full".toList, "short".toList]) .str, default := (some "full".toList).map .str }) rfl
  have r0 := reads_int hn hk hd interprets_size.1 m0
  constructor
  · intro e h
    unfold gameRules at h
    simp only [bind_error] at h
    rcases h with h | ⟨_, _, h⟩
    · exact never (reads hn hk hd interprets_size.1 int_inj m0) r0 h
    rcases h with h | ⟨_, _, h⟩
    · exact never (reads hn hk hd interprets_float float_inj m1) (reads_float hn hk hd interprets_float m1) h
    rcases h with h | ⟨_, _, h⟩
    · exact never (reads hn hk hd (interprets_none interprets_int).1 optInt_inj m2) (reads_optInt hn hk hd (interprets_none interprets_int).1 m2) h
    rcases h with h | ⟨_, _, h⟩
    · exact never (reads hn hk hd (interprets_enum _).1 str_inj m3) (reads_str hn hk hd (interprets_enum _).1 m3) h
    rcases h with h | ⟨_, _, h⟩
    · exact never (reads hn hk hd interprets_positive.1 int_inj m4) (reads_int hn hk hd interprets_positive.1 m4) h
    rcases h with h | ⟨_, _, h⟩
    · exact never (reads hn hk hd (interprets_enum _).1 str_inj m5) (reads_str hn hk hd (interprets_enum _).1 m5) h
    rcases h with h | ⟨_, _, h⟩
    · exact never (reads hn hk hd (interprets_enum _).1 str_inj m6) (reads_str hn hk hd (interprets_enum _).1 m6) h
    · cases h
  · intro r h
    unfold gameRules at h
    simp only [bind_ok] at h
    obtain ⟨n, h0, _, _, _, _, _, _, _, _, _, _, _, _, h⟩ := h
    injection h with h; subst h
    rcases (r0 _).1 h0 with ⟨v, _, h⟩ | ⟨_, h⟩
    · exact h.2
    · cases h

/-- What can go wrong with the opponent, the parameters and the maker. -/
theorem specials_error {α β : Type} {code : α → Str} {spec : List Val → List (Str × Val) → Except Err α} {players : List (Str × Gtp.JobPlayer)}
    {k : Gtp.JobPlayer → List α → Val → Except Err β} {Q : Err → Prop} (hk : ∀ o ps m e, k o ps m = .error e → Q e) (hc : ∀ e : Err, e.kind = .controlFile → Q e) (hs : ∀ v e, showOf W v = .error e → Q e)
    {e : Err} (h : (do
      let specials ← toControl (loadSettings W config true false (tunerSpecials W T) [])
      let opponent ← findOpponent players (← strOf specials "opponent")
      let configs ← valsOf specials "parameters"
      refuseIf configs.isEmpty ⟨.controlFile, "parameters: empty list".toList⟩
      let parameters ← parametersLoop W code spec 0 [] configs
      let maker ← fnOf specials "make_candidate"
      k opponent parameters maker) = .error e) : Q e := by
  have hn := specials_nodup (W := W) (T := T)
  have hkk := specials_noKey (W := W) (T := T)
  have hm : ∀ k, ∀ {s}, (tunerSpecials W T)[k]? = some s → s ∈ tunerSpecials W T := fun k => mem_at k
  have m0 := hm 0 (s := { name := "opponent".toList, interpreter := sv interpretIdentifier .str, default := (none : Option Str).map .str }) rfl
  have m1 := hm 1 (s := { name := "parameters".toList, interpreter := sv (interpretConfigs W "Parameter".toList false) .vals, default := (none : Option (List Val)).map .vals }) rfl
  have m2 := hm 2 (s := { name := "make_candidate".toList, interpreter := sv (interpretCallable T) fnVal, default := (none : Option Val).map fnVal }) rfl
  simp only [bind_error] at h
  rcases h with h | ⟨d, hd, h⟩
  · refine hc _ (toControl_load hn hkk ?_ h)
    intro s hs v e he
    simp only [tunerSpecials, List.mem_cons, List.not_mem_nil, or_false] at hs
    rcases hs with rfl | rfl | rfl
    · exact sv_error interprets_identifier he
    · exact sv_error interprets_configs he
    · exact sv_error interprets_callable he
  rw [toControl_ok] at hd
  rcases h with h | ⟨_, _, h⟩
  · exact never (reads hn hkk hd interprets_identifier.1 str_inj m0) (reads_str hn hkk hd interprets_identifier.1 m0) h
  rcases h with h | ⟨_, _, h⟩
  · apply hc
    unfold findOpponent at h
    split at h
    · cases h
    · injection h with h; subst h; rfl
  rcases h with h | ⟨cs, h1, h⟩
  · exact never (reads hn hkk hd interprets_configs.1 vals_inj m1) (reads_vals hn hkk hd interprets_configs.1 m1) h
  rcases h with h | ⟨_, _, h⟩
  · apply hc; rw [refuseIf_error h]
  rw [reads_vals hn hkk hd interprets_configs.1 m1] at h1
  have hl : ∀ x ∈ cs, ∃ args kwargs, x = .quiet "Parameter".toList args kwargs := by
    rcases h1 with ⟨_, _, h⟩ | ⟨_, h⟩
    · exact h.2
    · cases h
  rcases h with h | ⟨_, _, h⟩
  · rcases parametersLoop_error cs 0 [] e hl h with h | ⟨v, h⟩
    · exact hc _ h
    · exact hs _ _ h
  rcases h with h | ⟨_, _, h⟩
  · exact never (reads hn hkk hd interprets_callable.1 fn_inj m2) (reads_fn hn hkk hd interprets_callable.1 m2) h
  exact hk _ _ _ _ h

end

/-- C83: every problem with a cross-entropy tuner's control file is reported as a ControlFileError, except that a number which is too big to be a float makes the program fail
with OverflowError, and that a parameter which is refused and whose code can't be shown as a string makes it fail with whatever exception that causes. -/
theorem C83_cem_errors (W : World) (T : Fns) (base : Option Str) (code : Str) (config : List (Str × Val)) (e : Err) (h : initCem W T base code config = .error e) :
    e.kind = .controlFile ∨ TooBig W config ["komi", "elite_proportion", "step_size"] ∨ ∃ v, showOf W v = .error e := by
  have hn := globals_nodup_cem (W := W) (T := T)
  have hk := globals_noKey_cem (W := W) (T := T)
  have hm : ∀ k, ∀ {s}, (globalSettings ++ cemSettings W T)[k]? = some s → s ∈ globalSettings ++ cemSettings W T := fun k => mem_at k
  have m := hm 0 (s := { name := "description".toList, interpreter := sv (allowNone interpretUtf8Stripped) (optVal .str), default := (some none).map (optVal .str) }) rfl
  have m0 := hm 8 (s := { name := "candidate_colour".toList, interpreter := sv (interpretCandidateColour T) colourVal, default := (none : Option (Option Colour)).map colourVal }) rfl
  have m1 := hm 9 (s := { name := "batch_size".toList, interpreter := sv interpretPositiveInt .int, default := (none : Option Int).map .int }) rfl
  have m2 := hm 10 (s := { name := "samples_per_generation".toList, interpreter := sv interpretPositiveInt .int, default := (none : Option Int).map .int }) rfl
  have m3 := hm 11 (s := { name := "number_of_generations".toList, interpreter := sv interpretPositiveInt .int, default := (none : Option Int).map .int }) rfl
  have m4 := hm 12 (s := { name := "elite_proportion".toList, interpreter := sv (interpretFloat W) .float, default := (none : Option Num).map .float }) rfl
  have m5 := hm 13 (s := { name := "step_size".toList, interpreter := sv (interpretFloat W) .float, default := (none : Option Num).map .float }) rfl
  unfold initCem at h
  rw [bind_error] at h
  rcases h with h | ⟨⟨d, players⟩, h0, h⟩
  · refine Or.elim (initWith_error (by simp) hn hk (names := ["komi", "elite_proportion", "step_size"]) ?_ h) ?_ ?_
    · intro s hs
      simp only [List.mem_cons, List.not_mem_nil, or_false] at hs
      rcases hs with rfl | rfl | rfl | rfl | rfl | rfl
      · exact .inl fun _ _ h => sv_error interprets_colour h
      · exact .inl fun _ _ h => sv_error interprets_positive h
      · exact .inl fun _ _ h => sv_error interprets_positive h
      · exact .inl fun _ _ h => sv_error interprets_positive h
      · exact .inr ⟨"elite_proportion", by simp, rfl, rfl⟩
      · exact .inr ⟨"step_size", by simp, rfl, rfl⟩
    · intro h; exact .inl h
    · intro h; exact .inr (.inl h)
  have hd : loadSettings W config true false (globalSettings ++ cemSettings W T) [] = .ok d := by
    unfold initWith at h0
    simp only [bind_ok, toControl_ok] at h0
    obtain ⟨d', hd, _, _, _, _, _, _, h0⟩ := h0
    injection h0 with h0; injection h0 with h0; subst h0; exact hd
  dsimp only at h
  rw [bind_error] at h
  rcases h with h | ⟨_, _, h⟩
  · exact never (reads hn hk hd (interprets_none interprets_utf8_stripped).1 optStr_inj m) (reads_optStr hn hk hd (interprets_none interprets_utf8_stripped).1 m) h
  rw [bind_error] at h
  rcases h with h | ⟨r, hr, h⟩
  · exact absurd h ((gameRules_never hn hk hd).1 e)
  rw [bind_error] at h
  rcases h with h | ⟨_, _, h⟩
  · exact never (reads hn hk hd interprets_colour.1 colour_inj m0) (reads_colour hn hk hd interprets_colour.1 m0) h
  rw [bind_error] at h
  rcases h with h | ⟨_, _, h⟩
  · exact never (reads hn hk hd interprets_positive.1 int_inj m1) (reads_int hn hk hd interprets_positive.1 m1) h
  rw [bind_error] at h
  rcases h with h | ⟨_, _, h⟩
  · exact never (reads hn hk hd interprets_positive.1 int_inj m2) (reads_int hn hk hd interprets_positive.1 m2) h
  rw [bind_error] at h
  rcases h with h | ⟨_, _, h⟩
  · exact never (reads hn hk hd interprets_positive.1 int_inj m3) (reads_int hn hk hd interprets_positive.1 m3) h
  rw [bind_error] at h
  rcases h with h | ⟨_, _, h⟩
  · exact never (reads hn hk hd interprets_float float_inj m4) (reads_float hn hk hd interprets_float m4) h
  rw [bind_error] at h
  rcases h with h | ⟨_, _, h⟩
  · exact never (reads hn hk hd interprets_float float_inj m5) (reads_float hn hk hd interprets_float m5) h
  rw [bind_error] at h
  rcases h with h | ⟨_, _, h⟩
  · exact .inl (validateHandicap_error ((gameRules_never hn hk hd).2 r hr) h)
  rw [bind_error] at h
  rcases h with h | ⟨_, _, h⟩
  · left; rw [refuseIf_error h]
  rw [bind_error] at h
  rcases h with h | ⟨_, _, h⟩
  · left; rw [refuseIf_error h]
  exact specials_error (Q := fun e => e.kind = .controlFile ∨ TooBig W config ["komi", "elite_proportion", "step_size"] ∨ ∃ v, showOf W v = .error e)
    (fun o ps m e he => by cases he) (fun e he => .inl he) (fun v e he => .inr (.inr ⟨v, he⟩)) h

/-- C83: for a tree-search tuner it's the same, except that a komi which is an infinity or a NaN makes the program fail with OverflowError or ValueError. -/
theorem C83_mcts_errors (W : World) (T : Fns) (base : Option Str) (code : Str) (config : List (Str × Val)) (e : Err) (h : initMcts W T base code config = .error e) :
    e.kind = .controlFile ∨ TooBig W config ["komi", "exploration_coefficient"] ∨ (∃ v, showOf W v = .error e) ∨
    ∃ x, SettingIs W (fun n => config.lookup n) "komi" (IsFloat W) none x ∧ ∀ q, x ≠ .fin q := by
  have hn := globals_nodup_mcts (W := W) (T := T)
  have hk := globals_noKey_mcts (W := W) (T := T)
  have hm : ∀ k, ∀ {s}, (globalSettings ++ mctsSettings W T)[k]? = some s → s ∈ globalSettings ++ mctsSettings W T := fun k => mem_at k
  have m := hm 0 (s := { name := "description".toList, interpreter := sv (allowNone interpretUtf8Stripped) (optVal .str), default := (some none).map (optVal .str) }) rfl
  have mk := hm 2 (s := { name := "komi".toList, interpreter := sv (interpretFloat W) .float, default := (none : Option Num).map .float }) rfl
  have m0 := hm 8 (s := { name := "number_of_games".toList, interpreter := sv (allowNone interpretInt) (optVal .int), default := (some none).map (optVal .int) }) rfl
  have m1 := hm 9 (s := { name := "candidate_colour".toList, interpreter := sv (interpretCandidateColour T) colourVal, default := (none : Option (Option Colour)).map colourVal }) rfl
  have m2 := hm 10 (s := { name := "log_tree_to_history_period".toList, interpreter := sv (allowNone interpretPositiveInt) (optVal .int), default := (some none).map (optVal .int) }) rfl
  have m3 := hm 11 (s := { name := "summary_spec".toList, interpreter := sv (interpretInts W) intsVal, default := (some [30]).map intsVal }) rfl
  have m4 := hm 12 (s := { name := "number_of_running_simulations_to_show".toList, interpreter := sv interpretInt .int, default := (some 12).map .int }) rfl
  have tn := tree_nodup (W := W)
  have tk := tree_noKey (W := W)
  have tm : ∀ k, ∀ {s}, (treeSettings W)[k]? = some s → s ∈ treeSettings W := fun k => mem_at k
  have t0 := tm 0 (s := { name := "max_depth".toList, interpreter := sv interpretPositiveInt .int, default := (some 1).map .int }) rfl
  have t1 := tm 1 (s := { name := "exploration_coefficient".toList, interpreter := sv (interpretFloat W) .float, default := (none : Option Num).map .float }) rfl
  have t2 := tm 2 (s := { name := "initial_visits".toList, interpreter := sv interpretPositiveInt .int, default := (none : Option Int).map .int }) rfl
  have t3 := tm 3 (s := { name := "initial_wins".toList, interpreter := sv interpretPositiveInt .int, default := (none : Option Int).map .int }) rfl
  have sub : ∀ {names}, TooBig W config names → (∀ n ∈ names, n ∈ ["komi", "exploration_coefficient"]) → TooBig W config ["komi", "exploration_coefficient"] :=
    fun ⟨n, h1, h2⟩ hs => ⟨n, hs n h1, h2⟩
  unfold initMcts at h
  rw [bind_error] at h
  rcases h with h | ⟨⟨d, players⟩, h0, h⟩
  · refine Or.elim (initWith_error (by simp) hn hk (names := ["komi"]) ?_ h) ?_ ?_
    · intro s hs
      simp only [List.mem_cons, List.not_mem_nil, or_false] at hs
      rcases hs with rfl | rfl | rfl | rfl | rfl
      · exact .inl fun _ _ h => sv_error (interprets_none interprets_int) h
      · exact .inl fun _ _ h => sv_error interprets_colour h
      · exact .inl fun _ _ h => sv_error (interprets_none interprets_positive) h
      · exact .inl fun _ _ h => sv_error interprets_ints h
      · exact .inl fun _ _ h => sv_error interprets_int h
    · intro h; exact .inl h
    · intro h; exact .inr (.inl (sub h (by simp)))
  have hd : loadSettings W config true false (globalSettings ++ mctsSettings W T) [] = .ok d := by
    unfold initWith at h0
    simp only [bind_ok, toControl_ok] at h0
    obtain ⟨d', hd, _, _, _, _, _, _, h0⟩ := h0
    injection h0 with h0; injection h0 with h0; subst h0; exact hd
  dsimp only at h
  rw [bind_error] at h
  rcases h with h | ⟨_, _, h⟩
  · exact never (reads hn hk hd (interprets_none interprets_utf8_stripped).1 optStr_inj m) (reads_optStr hn hk hd (interprets_none interprets_utf8_stripped).1 m) h
  rw [bind_error] at h
  rcases h with h | ⟨r, hr, h⟩
  · exact absurd h ((gameRules_never hn hk hd).1 e)
  rw [bind_error] at h
  rcases h with h | ⟨_, _, h⟩
  · exact never (reads hn hk hd (interprets_none interprets_int).1 optInt_inj m0) (reads_optInt hn hk hd (interprets_none interprets_int).1 m0) h
  rw [bind_error] at h
  rcases h with h | ⟨_, _, h⟩
  · exact never (reads hn hk hd interprets_colour.1 colour_inj m1) (reads_colour hn hk hd interprets_colour.1 m1) h
  rw [bind_error] at h
  rcases h with h | ⟨_, _, h⟩
  · exact never (reads hn hk hd (interprets_none interprets_positive).1 optInt_inj m2) (reads_optInt hn hk hd (interprets_none interprets_positive).1 m2) h
  rw [bind_error] at h
  rcases h with h | ⟨_, _, h⟩
  · exact never (reads hn hk hd interprets_ints.1 ints_inj m3) (reads_ints hn hk hd interprets_ints.1 m3) h
  rw [bind_error] at h
  rcases h with h | ⟨_, _, h⟩
  · exact never (reads hn hk hd interprets_int.1 int_inj m4) (reads_int hn hk hd interprets_int.1 m4) h
  rw [bind_error] at h
  rcases h with h | ⟨_, _, h⟩
  · have hkomi : floatOf d "komi" = .ok r.komi := by
      unfold gameRules at hr
      simp only [bind_ok] at hr
      obtain ⟨_, _, k, hk, _, _, _, _, _, _, _, _, _, _, hr⟩ := hr
      injection hr with hr; subst hr; exact hk
    rw [reads_float hn hk hd interprets_float mk] at hkomi
    unfold checkKomi at h
    split at h
    · split at h
      · injection h with h; subst h; exact .inl rfl
      · cases h
    · rename_i hx; rw [hx] at hkomi; exact .inr (.inr (.inr ⟨_, hkomi, nofun⟩))
    · rename_i hx _; exact .inr (.inr (.inr ⟨_, hkomi, fun q hq => by first | exact hx q hq | exact absurd hq (by assumption)⟩))
  rw [bind_error] at h
  rcases h with h | ⟨_, _, h⟩
  · exact .inl (validateHandicap_error ((gameRules_never hn hk hd).2 r hr) h)
  refine specials_error (Q := fun e => e.kind = .controlFile ∨ TooBig W config ["komi", "exploration_coefficient"] ∨ (∃ v, showOf W v = .error e) ∨
      ∃ x, SettingIs W (fun n => config.lookup n) "komi" (IsFloat W) none x ∧ ∀ q, x ≠ .fin q)
    ?_ (fun e he => .inl he) (fun v e he => .inr (.inr (.inl ⟨v, he⟩))) h
  intro o ps mk' e h
  rw [bind_error] at h
  rcases h with h | ⟨td, htd, h⟩
  · refine Or.elim (load_control tn tk (names := ["exploration_coefficient"]) ?_ h) ?_ ?_
    · intro s hs
      simp only [treeSettings, List.mem_cons, List.not_mem_nil, or_false] at hs
      rcases hs with rfl | rfl | rfl | rfl
      · exact .inl fun _ _ h => sv_error interprets_positive h
      · exact .inr ⟨"exploration_coefficient", by simp, rfl, rfl⟩
      · exact .inl fun _ _ h => sv_error interprets_positive h
      · exact .inl fun _ _ h => sv_error interprets_positive h
    · intro h; exact .inl h
    · intro h; exact .inr (.inl (sub h (by simp)))
  rw [toControl_ok] at htd
  rw [bind_error] at h
  rcases h with h | ⟨_, _, h⟩
  · exact never (reads tn tk htd interprets_positive.1 int_inj t0) (reads_int tn tk htd interprets_positive.1 t0) h
  rw [bind_error] at h
  rcases h with h | ⟨_, _, h⟩
  · exact never (reads tn tk htd interprets_float float_inj t1) (reads_float tn tk htd interprets_float t1) h
  rw [bind_error] at h
  rcases h with h | ⟨_, _, h⟩
  · exact never (reads tn tk htd interprets_positive.1 int_inj t2) (reads_int tn tk htd interprets_positive.1 t2) h
  rw [bind_error] at h
  rcases h with h | ⟨_, _, h⟩
  · exact never (reads tn tk htd interprets_positive.1 int_inj t3) (reads_int tn tk htd interprets_positive.1 t3) h
  cases h

/-! ### An example -/

/-- `obj 0` is the players; `obj 1` and `obj 11` are lists of parameters, and the others are lists which are refused; `obj 20` is `float`, `obj 21` a function which only
works for positive numbers, and `obj 22` is make_candidate. -/
def tunerWorld : World where
  listOf
    | .obj 1 => some [
        .quiet "Parameter".toList [.str "alpha".toList] [("initial_mean".toList, .int 3), ("initial_variance".toList, .float (.fin (1 / 2)))],
        .quiet "Parameter".toList [] [("code".toList, .unicode "beta".toList), ("initial_mean".toList, .int 1), ("initial_variance".toList, .float .nan), ("transform".toList, .obj 21),
          ("format".toList, .str "b=%s".toList)]]
    | .obj 2 => some [
        .quiet "Parameter".toList [.str "alpha".toList] [("initial_mean".toList, .int 3), ("initial_variance".toList, .int 1)],
        .quiet "Parameter".toList [.unicode "alpha".toList] [("initial_mean".toList, .int 4), ("initial_variance".toList, .int 2)]]
    | .obj 3 => some [
        .quiet "Parameter".toList [.str "alpha".toList] [("initial_mean".toList, .int 3), ("initial_variance".toList, .int 1)],
        .quiet "Parameter".toList [] [("initial_mean".toList, .int 2), ("initial_variance".toList, .int 2)]]
    | .obj 4 => some [.quiet "Parameter".toList [.str "alpha".toList] [("initial_mean".toList, .int 3), ("initial_variance".toList, .int (-1))]]
    | .obj 5 => some [.quiet "Parameter".toList [.str "alpha".toList] [("initial_mean".toList, .int 0), ("initial_variance".toList, .int 1), ("transform".toList, .obj 21)]]
    | .obj 6 => some [.quiet "Parameter".toList [.str "alpha".toList] [("initial_mean".toList, .int 0), ("initial_variance".toList, .int 1), ("format".toList, .str "%".toList)]]
    | .obj 7 => some []
    | .obj 11 => some [
        .quiet "Parameter".toList [.str "alpha".toList] [("scale".toList, .obj 20), ("split".toList, .int 4)],
        .quiet "Parameter".toList [.str "beta".toList] [("scale".toList, .obj 21), ("split".toList, .int 8), ("format".toList, .str "b=%s".toList)]]
    | .obj 12 => some [.int 30, .bool true]
    | _ => none
  mapOf
    | .obj 0 => some [(.str "p2".toList, .quiet "Player".toList [.str "gnugo --mode=gtp".toList] []), (.str "p1".toList, .quiet "Player".toList [.str "fuego".toList] [])]
    | _ => none
  resolve _ := .error "failed".toList
  floatOf n := if n.natAbs < 2 ^ 1024 then some (.fin n) else none
  shlex s := .ok (Gtp.splitWs s)
  showVal _ := .ok "?".toList
  expandUser s := some s

/-- Applying the functions. -/
def tunerApply : Val → Num → Except Str Val
  | .obj 20, x => .ok (.float x)
  | .obj 21, .fin q => if 0 < q then .ok (.float (.fin (2 * q))) else .error "traceback".toList
  | _, _ => .error "traceback".toList

/-- Functions for the example. (The text of a number is that of its whole part.) -/
def tunerFns : Fns where
  callable
    | .obj n => decide (20 ≤ n)
    | _ => false
  floatFn := .obj 20
  apply := tunerApply
  make
    | .obj 22, [.float (.fin a), .float (.fin b)] =>
      if a = 0 then .error "zero".toList
      else if a = 1 then .ok (.int 1)
      else if a = 2 then .ok (.quiet "Player".toList [] [])
      else .ok (.quiet "Player".toList [.str ("fuego ".toList ++ strInt a.floor ++ " ".toList ++ strInt b.floor)] [])
    | _, _ => .error "wrong arguments".toList
  percent format v := match format, v with
    | 'b' :: '=' :: _, .float (.fin q) => some ("b=".toList ++ strInt q.floor)
    | 'a' :: _, .float (.fin q) => if q = 2 then none else some ("alpha:".toList ++ strInt q.floor)
    | 'b' :: '=' :: _, .float _ => some "b=nan".toList
    | _, _ => none
  repr _ := .ok "1".toList
  showNum
    | .fin q => strInt q.num ++ "/".toList ++ strInt q.den
    | _ => "nan".toList
  lowerU s := lower s

/-- A control file for the cross-entropy tuner. -/
def cemConfig (parameters : Nat) : List (Str × Val) :=
  [("players".toList, .obj 0), ("board_size".toList, .int 9), ("komi".toList, .int 7), ("candidate_colour".toList, .str "Black".toList), ("opponent".toList, .str "p2".toList),
   ("batch_size".toList, .int 3), ("samples_per_generation".toList, .int 10), ("number_of_generations".toList, .int 2), ("elite_proportion".toList, .float (.fin (1 / 10))),
   ("step_size".toList, .float (.fin (4 / 5))), ("parameters".toList, .obj parameters), ("make_candidate".toList, .obj 22)]

/-- A control file for the tree-search tuner. -/
def mctsConfig (komi : Num) : List (Str × Val) :=
  [("players".toList, .obj 0), ("board_size".toList, .int 9), ("komi".toList, .float komi), ("candidate_colour".toList, .unicode "r".toList), ("opponent".toList, .str "p1".toList),
   ("parameters".toList, .obj 11), ("make_candidate".toList, .obj 22), ("max_depth".toList, .int 2), ("exploration_coefficient".toList, .float (.fin (1 / 5))),
   ("initial_visits".toList, .int 10), ("initial_wins".toList, .int 5), ("summary_spec".toList, .obj 12)]

def colourView : Option Colour → Str
  | some .b => "b".toList
  | some .w => "w".toList
  | none => "random".toList

def optView : Option Int → Str
  | none => "None".toList
  | some n => strInt n

/-- A tuner, or the error. -/
def baseView (t : TunerBase) : List (List Str) :=
  [[t.code, strInt t.rules.boardSize, tunerFns.showNum t.rules.komi, optView t.rules.handicap, colourView t.colour, t.opponent.code], t.players.map Prod.fst]

def cemView (x : Except Err CemTuner) : List (List Str) :=
  match x with
  | .ok t => baseView t.base ++ [[strInt t.batchSize, strInt t.samples, strInt t.generations, tunerFns.showNum t.elite, tunerFns.showNum t.step]] ++
      t.parameters.map (fun p => [p.code, tunerFns.showNum p.mean, tunerFns.showNum p.variance, p.format])
  | .error e => [[e.msg]]

def mctsView (x : Except Err MctsTuner) : List (List Str) :=
  match x with
  | .ok t => baseView t.base ++ [[optView t.numberOfGames, optView t.logPeriod, strInt t.simulationsToShow, strInt t.maxDepth, strInt t.initialVisits, strInt t.initialWins],
      t.summarySpec.map strInt] ++ t.parameters.map (fun p => [p.code, strInt p.split, p.format])
  | .error e => [[e.msg]]

/-- What Python guarantees, for the example. -/
theorem tunerWorld_kwargs : ∀ v l, tunerWorld.listOf v = some l → Kwargs l := by
  intro v l h
  unfold tunerWorld at h
  simp only at h
  split at h
  all_goals
    cases h
    try
      intro c args kwargs hm
      simp only [List.mem_cons, List.not_mem_nil, or_false, reduceCtorEq, Val.quiet.injEq, false_or, or_false, or_self] at hm
      try
        rcases hm with hm | hm
        · obtain ⟨_, _, rfl⟩ := hm; decide
        · obtain ⟨_, _, rfl⟩ := hm; decide
      try
        obtain ⟨_, _, rfl⟩ := hm; decide

/-- C83: a cross-entropy tuner, and a tree-search tuner; and some control files which are refused. A NaN is accepted as a variance. A komi which is a NaN or an infinity isn't
reported as an error in the control file. -/
theorem C83_witness :
    (∀ v l, tunerWorld.listOf v = some l → Kwargs l) ∧
    cemView (initCem tunerWorld tunerFns none "test".toList (cemConfig 1)) =
      [["test".toList, "9".toList, "7/1".toList, "None".toList, "b".toList, "p2".toList], ["p1".toList, "p2".toList],
       ["3".toList, "10".toList, "2".toList, "1/10".toList, "4/5".toList], ["alpha".toList, "3/1".toList, "1/2".toList, "alpha:%s".toList],
       ["beta".toList, "1/1".toList, "nan".toList, "b=%s".toList]] ∧
    cemView (initCem tunerWorld tunerFns none "test".toList (cemConfig 2)) = [["duplicate parameter code: alpha".toList]] ∧
    cemView (initCem tunerWorld tunerFns none "test".toList (cemConfig 3)) = [["parameter 1: 'code' not specified".toList]] ∧
    cemView (initCem tunerWorld tunerFns none "test".toList (cemConfig 4)) = [["parameter alpha: 'initial_variance': must be nonnegative".toList]] ∧
    cemView (initCem tunerWorld tunerFns none "test".toList (cemConfig 5)) = [["parameter alpha: error from transform (applied to initial_mean)\ntraceback".toList]] ∧
    cemView (initCem tunerWorld tunerFns none "test".toList (cemConfig 6)) = [["parameter alpha: 'format': invalid format string".toList]] ∧
    cemView (initCem tunerWorld tunerFns none "test".toList (cemConfig 7)) = [["parameters: empty list".toList]] ∧
    cemView (initCem tunerWorld tunerFns none "test".toList (("opponent".toList, .str "p3".toList) :: cemConfig 1)) = [["opponent: unknown player p3".toList]] ∧
    cemView (initCem tunerWorld tunerFns none "test".toList (("step_size".toList, .int 1) :: cemConfig 1)) = [["step_size out of range (0.0 to 1.0)".toList]] ∧
    mctsView (initMcts tunerWorld tunerFns none "test".toList (mctsConfig (.fin (15 / 2)))) =
      [["test".toList, "9".toList, "15/2".toList, "None".toList, "random".toList, "p1".toList], ["p1".toList, "p2".toList],
       ["None".toList, "None".toList, "12".toList, "2".toList, "10".toList, "5".toList], ["30".toList, "1".toList],
       ["alpha".toList, "4".toList, "alpha:%s".toList], ["beta".toList, "8".toList, "b=%s".toList]] ∧
    mctsView (initMcts tunerWorld tunerFns none "test".toList (mctsConfig (.fin 7))) = [["komi: must be fractional to prevent jigos".toList]] ∧
    mctsView (initMcts tunerWorld tunerFns none "test".toList (mctsConfig .nan)) = [["cannot convert float NaN to integer".toList]] ∧
    mctsView (initMcts tunerWorld tunerFns none "test".toList (mctsConfig .inf)) = [["cannot convert float infinity to integer".toList]] := by
  refine ⟨tunerWorld_kwargs, by decide +kernel, by decide +kernel, by decide +kernel, by decide +kernel, by decide +kernel, by decide +kernel, by decide +kernel,
    by decide +kernel, by decide +kernel, by decide +kernel, by decide +kernel, by decide +kernel, by decide +kernel⟩

end Gomill.Conf
