import Verif.Spec.Clop
import Verif.Props.Candidates
import Verif.Props.ControlFile
/-
C100: the gomill-clop script.
-/
namespace Gomill.Conf
open Py Spec

section
variable {W : World} {T : Fns} {config : List (Str × Val)}

/-! ### Settings -/

theorem interprets_fixed : Interprets (interpretFixedColour T) (ColourIs T) := by
  have key : ∀ v : Val, (∃ s, v = .str s) ∨ (∃ s, v = .unicode s) ∨ ((∀ s, v ≠ .str s) ∧ ∀ s, v ≠ .unicode s) := by
    intro v
    cases v
    case str s => exact .inl ⟨s, rfl⟩
    case unicode s => exact .inr (.inl ⟨s, rfl⟩)
    all_goals exact .inr (.inr ⟨(fun s h => nomatch h), (fun s h => nomatch h)⟩)
  constructor
  · intro v x
    unfold interpretFixedColour interpretColour
    rcases key v with ⟨s, rfl⟩ | ⟨s, rfl⟩ | ⟨h1, h2⟩
    · dsimp only
      cases hc : colourOf (lower s) with
      | none =>
        constructor
        · intro h; cases h
        · intro h; cases h with | str h => rw [colourOf_iff.2 h] at hc; cases hc
      | some c =>
        constructor
        · intro h; injection h with h; subst h; exact .str (colourOf_iff.1 hc)
        · intro h; cases h with | str h => rw [colourOf_iff.2 h] at hc; rw [Option.some.inj hc]
    · dsimp only
      cases hc : colourOf (T.lowerU s) with
      | none =>
        constructor
        · intro h; cases h
        · intro h; cases h with | unicode h => rw [colourOf_iff.2 h] at hc; cases hc
      | some c =>
        constructor
        · intro h; injection h with h; subst h; exact .unicode (colourOf_iff.1 hc)
        · intro h; cases h with | unicode h => rw [colourOf_iff.2 h] at hc; rw [Option.some.inj hc]
    · constructor
      · intro h
        cases v <;> first | cases h | exact absurd rfl (h1 _) | exact absurd rfl (h2 _)
      · intro h
        cases h
        · exact absurd rfl (h1 _)
        · exact absurd rfl (h2 _)
  · intro v e h
    unfold interpretFixedColour interpretColour at h
    rcases key v with ⟨s, rfl⟩ | ⟨s, rfl⟩ | ⟨h1, h2⟩
    · dsimp only at h
      cases hc : colourOf (lower s) with
      | none => rw [hc] at h; cases h; rfl
      | some c => rw [hc] at h; cases h
    · dsimp only at h
      cases hc : colourOf (T.lowerU s) with
      | none => rw [hc] at h; cases h; rfl
      | some c => rw [hc] at h; cases h
    · cases v <;> first | (cases h; rfl) | exact absurd rfl (h1 _) | exact absurd rfl (h2 _)

theorem bool_inj (x y : Bool) (h : SVal.bool x = SVal.bool y) : x = y := by injection h
theorem optFloat_inj (x y : Option Num) (h : optVal SVal.float x = optVal SVal.float y) : x = y := by
  cases x <;> cases y <;> simp_all [optVal]

/-- `interpret_float`, for a setting whose default is the int 3. -/
def floatOr3 (W : World) (v : Val) : Except Err (Option Num) :=
  match interpretFloat W v with
  | .ok x => .ok (some x)
  | .error e => .error e

theorem floatOr3_ok (v : Val) (x : Option Num) : floatOr3 W v = .ok x ↔ SomeFloat W v x := by
  unfold floatOr3 SomeFloat
  cases h : interpretFloat W v with
  | error e =>
    constructor
    · intro h'; cases h'
    · rintro ⟨y, h', -⟩; rw [(interprets_float v y).2 h'] at h; cases h
  | ok z =>
    constructor
    · intro h'; injection h' with h'; exact ⟨z, (interprets_float v z).1 h, h'.symm⟩
    · rintro ⟨y, h', rfl⟩; rw [(interprets_float v y).2 h'] at h; injection h with h; rw [h]

theorem floatOr3_eq : sv (interpretFloat W) (fun x => SVal.float x) = sv (floatOr3 W) (optVal .float) := by
  funext v
  unfold sv floatOr3
  cases interpretFloat W v <;> rfl

section
variable {ss : List Setting} (hn : (ss.map Setting.name).Nodup) (hk : ∀ s ∈ ss, NoKeyError s) {d : List (Str × SVal)} (hd : loadSettings W config true false ss [] = .ok d)
  {name : String}
include hn hk hd

theorem reads_bool {f : Val → Except Err Bool} {P : Val → Bool → Prop} (hf : ∀ v x, f v = .ok x ↔ P v x) {default : Option Bool}
    (hs : ({ name := name.toList, interpreter := sv f .bool, default := default.map .bool } : Setting) ∈ ss) (y : Bool) :
    boolOf d name = .ok y ↔ SettingIs W (fun n => config.lookup n) name P default y := by
  obtain ⟨x, h1, h2⟩ := reads hn hk hd hf bool_inj hs
  rw [h2, boolOf_ok, h1]
  exact ⟨fun h => (bool_inj _ _ (Option.some.inj h)).symm, fun h => by rw [h]⟩

theorem reads_optFloat {f : Val → Except Err (Option Num)} {P : Val → Option Num → Prop} (hf : ∀ v x, f v = .ok x ↔ P v x) {default : Option (Option Num)}
    (hs : ({ name := name.toList, interpreter := sv f (optVal .float), default := default.map (optVal .float) } : Setting) ∈ ss) (y : Option Num) :
    optFloatOf d name = .ok y ↔ SettingIs W (fun n => config.lookup n) name P default y := by
  obtain ⟨x, h1, h2⟩ := reads hn hk hd hf optFloat_inj hs
  rw [h2]
  have : optFloatOf d name = .ok x := by
    unfold optFloatOf
    rw [h1]
    cases x <;> rfl
  rw [this]
  exact ⟨fun h => by injection h with h; exact h.symm, fun h => by rw [h]⟩

end

/-! ### Parameters -/

theorem clopParameterSettings_nodup : ((clopParameterSettings W).map Setting.name).Nodup := by
  show (["code".toList, "type".toList, "min".toList, "max".toList] : List Str).Nodup
  decide +kernel

theorem clopParameterSettings_noKey : ∀ s ∈ clopParameterSettings W, NoKeyError s := by
  intro s hs
  simp only [clopParameterSettings, List.mem_cons, List.not_mem_nil, or_false] at hs
  rcases hs with rfl | rfl | rfl | rfl
  · exact sv_noKey interprets_identifier
  · exact sv_noKey (interprets_enum _)
  · exact float_noKey
  · exact float_noKey

theorem clopKeys : ((clopParameterSettings W).map Setting.name).filter (fun n => n ≠ "code".toList) = ["type".toList, "min".toList, "max".toList] := by
  show (["code".toList, "type".toList, "min".toList, "max".toList] : List Str).filter (fun n => n ≠ "code".toList) = _
  decide +kernel

theorem checkWhole_ok {name : String} {x : Num} {u : Unit} : checkWhole name x = .ok u ↔ ∃ n : Int, x = .fin n := by
  unfold checkWhole
  cases x with
  | fin q =>
    by_cases h : q = (q.floor : Rat)
    · simp only [if_pos h, true_iff]; exact ⟨q.floor, by rw [← h]⟩
    · simp only [if_neg h]
      constructor
      · intro h'; cases h'
      · rintro ⟨n, h'⟩
        injection h' with h'
        exact absurd (by rw [h', Rat.floor_intCast]) h
  | _ => exact ⟨(fun h => nomatch h), fun ⟨_, h⟩ => nomatch h⟩

theorem checkRange_ok {b : Bool} {x y : Num} {u : Unit} : checkRange b x y = .ok u ↔ (b = true → (∃ n : Int, x = .fin n) ∧ ∃ n : Int, y = .fin n) := by
  unfold checkRange
  cases b with
  | false => simp
  | true =>
    simp only [if_true, forall_const]
    cases h : checkWhole "min" x with
    | error e =>
      simp only [false_iff, reduceCtorEq]
      rintro ⟨h', -⟩
      rw [(checkWhole_ok (name := "min") (u := ())).2 h'] at h; cases h
    | ok u' =>
      simp only
      rw [checkWhole_ok]
      exact ⟨fun h' => ⟨checkWhole_ok.1 h, h'⟩, fun h' => h'.2⟩

theorem hasInteger_iff {s : Str} (h : s ∈ clopTypes) : hasInteger s = true ↔ s = "IntegerParameter".toList ∨ s = "IntegerGammaParameter".toList := by
  have : ∀ s ∈ clopTypes, hasInteger s = true ↔ s = "IntegerParameter".toList ∨ s = "IntegerGammaParameter".toList := by decide +kernel
  exact this s h

/-- C100: the parameters which are accepted. -/
theorem C100_parameter (W : World) (args : List Val) (kwargs : List (Str × Val)) (hn : (kwargs.map Prod.fst).Nodup) (p : ClopParam) :
    clopParameter W args kwargs = .ok p ↔ ClopParamIs W args kwargs p := by
  have hnd := clopParameterSettings_nodup (W := W)
  have hk := clopParameterSettings_noKey (W := W)
  have hm : ∀ k, ∀ {s}, (clopParameterSettings W)[k]? = some s → s ∈ clopParameterSettings W := fun k => mem_at k
  have m0 := hm 0 (s := { name := "code".toList, interpreter := sv interpretIdentifier .str, default := (none : Option Str).map .str }) rfl
  have m1 := hm 1 (s := { name := "type".toList, interpreter := sv (interpretEnum clopTypes) .str, default := (none : Option Str).map .str }) rfl
  have m2 := hm 2 (s := { name := "min".toList, interpreter := sv (interpretFloat W) .float, default := (none : Option Num).map .float }) rfl
  have m3 := hm 3 (s := { name := "max".toList, interpreter := sv (interpretFloat W) .float, default := (none : Option Num).map .float }) rfl
  have he : Interprets (interpretEnum clopTypes) (OneOf ["LinearParameter", "IntegerParameter", "GammaParameter", "IntegerGammaParameter"]) := interprets_enum clopTypes
  have htype : ∀ {look : Str → Option Val} {s}, SettingIs W look "type" (OneOf ["LinearParameter", "IntegerParameter", "GammaParameter", "IntegerGammaParameter"]) none s → s ∈ clopTypes := by
    rintro look s (⟨v, _, h⟩ | ⟨_, h⟩)
    · exact h.1
    · cases h
  unfold clopParameter
  rw [arguments_iff hn, clopKeys]
  constructor
  · rintro ⟨good, a, ha, -, h⟩
    simp only [bind_ok] at h
    obtain ⟨d, hd, code, h0, type, h1, lo, h2, hi, h3, u, h4, h5⟩ := h
    injection h5 with h5; subst h5
    rw [checkRange_ok] at h4
    rw [reads_str hnd hk hd interprets_identifier.1 m0, ha] at h0
    rw [reads_str hnd hk hd he.1 m1, ha] at h1
    rw [reads_float hnd hk hd interprets_float m2, ha] at h2
    rw [reads_float hnd hk hd interprets_float m3, ha] at h3
    exact ⟨good, h0, h1, h2, h3, hasInteger_iff (htype h1), h4⟩
  · intro h
    obtain ⟨a, hr, hl⟩ := (C73_resolve_arguments _ _ args kwargs hn).1 h.arguments
    have ha : (fun n => a.lookup n) = argument ["code".toList] args kwargs := funext hl
    refine ⟨h.arguments, a, ha, hr, ?_⟩
    have hint : p.isInteger = hasInteger p.type := by
      rw [Bool.eq_iff_iff, h.isInteger, hasInteger_iff (htype h.type)]
    have g0 := h.code; have g1 := h.type; have g2 := h.min; have g3 := h.max
    rw [← ha] at g0 g1 g2 g3
    obtain ⟨d, hd⟩ := (load_iff (W := W) (config := a) hnd hk).2 (by
      intro s hs
      simp only [clopParameterSettings, List.mem_cons, List.not_mem_nil, or_false] at hs
      rcases hs with rfl | rfl | rfl | rfl
      · exact ⟨_, (setting_iff interprets_identifier.1 str_inj (default := none)).2 g0⟩
      · exact ⟨_, (setting_iff he.1 str_inj (default := none)).2 g1⟩
      · exact ⟨_, (setting_iff interprets_float float_inj (default := none)).2 g2⟩
      · exact ⟨_, (setting_iff interprets_float float_inj (default := none)).2 g3⟩)
    simp only [bind_ok]
    refine ⟨d, hd, _, (reads_str hnd hk hd interprets_identifier.1 m0 _).2 g0, _, (reads_str hnd hk hd he.1 m1 _).2 g1,
      _, (reads_float hnd hk hd interprets_float m2 _).2 g2, _, (reads_float hnd hk hd interprets_float m3 _).2 g3, (), checkRange_ok.2 (hint ▸ h.whole), ?_⟩
    rw [← hint]
    rfl

/-! ### The control file -/

theorem globals_nodup_clop : ((globalSettings ++ clopSettings W T).map Setting.name).Nodup := by
  show (["description".toList, "board_size".toList, "komi".toList, "handicap".toList, "handicap_style".toList, "move_limit".toList, "scorer".toList,
    "internal_scorer_handicap_compensation".toList, "candidate_colour".toList, "parallel".toList, "clop_H".toList, "correlations".toList, "stop_on_error".toList] : List Str).Nodup
  decide +kernel

theorem globals_noKey_clop : ∀ s ∈ globalSettings ++ clopSettings W T, NoKeyError s := by
  intro s hs
  rcases List.mem_append.1 hs with hs | hs
  · exact globalSettings_noKey s hs
  rcases List.mem_append.1 hs with hs | hs
  · exact gameSettings_noKey s hs
  simp only [List.mem_cons, List.not_mem_nil, or_false] at hs
  rcases hs with rfl | rfl | rfl | rfl | rfl
  · exact sv_noKey interprets_fixed
  · exact sv_noKey interprets_int
  · exact float_noKey
  · exact sv_noKey (interprets_enum _)
  · exact sv_noKey interprets_bool

end

/-- C100: a control file is accepted exactly when it gives such a tuner. -/
theorem C100_config (W : World) (T : Fns) (hkw : ∀ v l, W.listOf v = some l → Kwargs l) (base : Option Str) (code : Str) (config : List (Str × Val)) (t : ClopTuner) :
    initClop W T base code config = .ok t ↔ ClopOf W T base code config t := by
  have hn := globals_nodup_clop (W := W) (T := T)
  have hk := globals_noKey_clop (W := W) (T := T)
  have hm : ∀ k, ∀ {s}, (globalSettings ++ clopSettings W T)[k]? = some s → s ∈ globalSettings ++ clopSettings W T := fun k => mem_at k
  have m0 := hm 8 (s := { name := "candidate_colour".toList, interpreter := sv (interpretFixedColour T) colourVal, default := (none : Option (Option Colour)).map colourVal }) rfl
  have m1 := hm 9 (s := { name := "parallel".toList, interpreter := sv interpretInt .int, default := (some 1).map .int }) rfl
  have m2 := hm 10 (s := { name := "clop_H".toList, interpreter := sv (floatOr3 W) (optVal .float), default := (some none).map (optVal .float) })
    (by show some _ = some _; rw [← floatOr3_eq]; rfl)
  have m3 := hm 11 (s := { name := "correlations".toList, interpreter := sv (interpretEnum ["all".toList, "none".toList]) .str, default := (some "all".toList).map .str }) rfl
  have m4 := hm 12 (s := { name := "stop_on_error".toList, interpreter := sv interpretBool .bool, default := (some true).map .bool }) rfl
  unfold initClop
  simp only [bind_ok, toControl_ok, refuseIf_ok]
  constructor
  · rintro ⟨⟨d, players⟩, h0, desc, h1, rules, h2, colour, h3, par, h4, hh, h5, corr, h6, stop, h7, _, h9, sp, h12, o, h13, opp, h14, cs, h15,
      -, h16, ps, h17, maker, h18, h⟩
    injection h with h; subst h
    dsimp only at h1 h2 h3 h4 h5 h6 h7
    obtain ⟨hd, hi⟩ := (initWith_iff hn hk).1 ⟨h0, h1⟩
    have hr := (gameRules_iff hn hk hd).1 ⟨h2, h9⟩
    rw [reads_colour hn hk hd interprets_fixed.1 m0] at h3
    rw [reads_int hn hk hd interprets_int.1 m1] at h4
    rw [reads_optFloat hn hk hd floatOr3_ok m2] at h5
    rw [reads_str hn hk hd (interprets_enum _).1 m3] at h6
    rw [reads_bool hn hk hd interprets_bool.1 m4] at h7
    obtain ⟨s1, s2, s3⟩ := specials_iff.1 ⟨sp, h12, ⟨o, h13, h14⟩, h15, h18⟩
    exact ⟨rfl, hi, hr, h3, h4, h5, h6, h7, s1, (parameters_iff (C100_parameter W) hkw).1 ⟨cs, s2, h16, h17⟩, s3⟩
  · intro h
    obtain ⟨d, hd⟩ := (load_iff (W := W) (config := config) hn hk).2 (by
      intro s hs
      rcases List.mem_append.1 hs with hs | hs
      · exact description_gets h.competition s hs
      rcases List.mem_append.1 hs with hs | hs
      · exact game_gets h.rules s hs
      simp only [List.mem_cons, List.not_mem_nil, or_false] at hs
      rcases hs with rfl | rfl | rfl | rfl | rfl
      · exact ⟨_, (setting_iff interprets_fixed.1 colour_inj (default := none)).2 h.colour⟩
      · exact ⟨_, (setting_iff interprets_int.1 int_inj (default := some 1)).2 h.parallel⟩
      · rw [show (sv (interpretFloat W) SVal.float) = sv (floatOr3 W) (optVal .float) from floatOr3_eq]
        exact ⟨_, (setting_iff floatOr3_ok optFloat_inj (default := some none)).2 h.clopH⟩
      · exact ⟨_, (setting_iff (interprets_enum ["all".toList, "none".toList]).1 str_inj (default := some "all".toList)).2 h.correlations⟩
      · exact ⟨_, (setting_iff interprets_bool.1 bool_inj (default := some true)).2 h.stopOnError⟩)
    obtain ⟨h0, h1⟩ := (initWith_iff hn hk).2 ⟨hd, h.competition⟩
    obtain ⟨h2, h9⟩ := (gameRules_iff hn hk hd).2 h.rules
    obtain ⟨cs, s2, h16, h17⟩ := (parameters_iff (C100_parameter W) hkw).2 h.parameters
    obtain ⟨sp, h12, ⟨o, h13, h14⟩, h15, h18⟩ := specials_iff.2 ⟨h.opponent, s2, h.maker⟩
    refine ⟨(d, t.base.players), h0, _, h1, _, h2, _, (reads_colour hn hk hd interprets_fixed.1 m0 _).2 h.colour, _, (reads_int hn hk hd interprets_int.1 m1 _).2 h.parallel,
      _, (reads_optFloat hn hk hd floatOr3_ok m2 _).2 h.clopH, _, (reads_str hn hk hd (interprets_enum _).1 m3 _).2 h.correlations,
      _, (reads_bool hn hk hd interprets_bool.1 m4 _).2 h.stopOnError, (), h9, sp, h12, o, h13, _, h14, cs, h15,
      (), h16, _, h17, _, h18, ?_⟩
    rw [← h.code]
    rfl

/-- C100: every problem with the settings is reported as a ControlFileError, except that a number which is too big to be a float makes the program fail with OverflowError, and that a
parameter which is refused and whose code can't be shown as a string makes it fail with whatever exception that causes. -/
theorem C100_config_errors (W : World) (T : Fns) (base : Option Str) (code : Str) (config : List (Str × Val)) (e : Err) (h : initClop W T base code config = .error e) :
    e.kind = .controlFile ∨ TooBig W config ["komi", "clop_H"] ∨ ∃ v, showOf W v = .error e := by
  have hn := globals_nodup_clop (W := W) (T := T)
  have hk := globals_noKey_clop (W := W) (T := T)
  have hm : ∀ k, ∀ {s}, (globalSettings ++ clopSettings W T)[k]? = some s → s ∈ globalSettings ++ clopSettings W T := fun k => mem_at k
  have m := hm 0 (s := { name := "description".toList, interpreter := sv (allowNone interpretUtf8Stripped) (optVal .str), default := (some none).map (optVal .str) }) rfl
  have m0 := hm 8 (s := { name := "candidate_colour".toList, interpreter := sv (interpretFixedColour T) colourVal, default := (none : Option (Option Colour)).map colourVal }) rfl
  have m1 := hm 9 (s := { name := "parallel".toList, interpreter := sv interpretInt .int, default := (some 1).map .int }) rfl
  have m2 := hm 10 (s := { name := "clop_H".toList, interpreter := sv (floatOr3 W) (optVal .float), default := (some none).map (optVal .float) })
    (by show some _ = some _; rw [← floatOr3_eq]; rfl)
  have m3 := hm 11 (s := { name := "correlations".toList, interpreter := sv (interpretEnum ["all".toList, "none".toList]) .str, default := (some "all".toList).map .str }) rfl
  have m4 := hm 12 (s := { name := "stop_on_error".toList, interpreter := sv interpretBool .bool, default := (some true).map .bool }) rfl
  unfold initClop at h
  rw [bind_error] at h
  rcases h with h | ⟨⟨d, players⟩, h0, h⟩
  · refine Or.elim (initWith_error (by simp) hn hk (names := ["komi", "clop_H"]) ?_ h) ?_ ?_
    · intro s hs
      simp only [List.mem_cons, List.not_mem_nil, or_false] at hs
      rcases hs with rfl | rfl | rfl | rfl | rfl
      · exact .inl fun _ _ h => sv_error interprets_fixed h
      · exact .inl fun _ _ h => sv_error interprets_int h
      · exact .inr ⟨"clop_H", by simp, rfl, rfl⟩
      · exact .inl fun _ _ h => sv_error (interprets_enum _) h
      · exact .inl fun _ _ h => sv_error interprets_bool h
    · intro h; exact .inl h
    · intro h; exact .inr (.inl h)
  have hd : loadSettings W config true false (globalSettings ++ clopSettings W T) [] = .ok d := by
    unfold initWith at h0
    simp only [bind_ok, toControl_ok] at h0
    obtain ⟨d', hd, _, _, _, _, _, _, h0⟩ := h0
    injection h0 with h0; injection h0 with h0; subst h0; exact hd
  dsimp only at h
  rw [bind_error] at h
  rcases h with h | ⟨_, _, h⟩
  · exact never (reads hn hk hd (interprets_none interprets_utf8_stripped).1 optStr_inj m) (reads_optStr hn hk hd (interprets_none interprets_utf8_stripped).1 m) h
  rw [bind_error] at h
  rcases h with h | ⟨r, hr, h⟩
  · exact absurd h ((gameRules_never hn hk hd).1 e)
  rw [bind_error] at h
  rcases h with h | ⟨_, _, h⟩
  · exact never (reads hn hk hd interprets_fixed.1 colour_inj m0) (reads_colour hn hk hd interprets_fixed.1 m0) h
  rw [bind_error] at h
  rcases h with h | ⟨_, _, h⟩
  · exact never (reads hn hk hd interprets_int.1 int_inj m1) (reads_int hn hk hd interprets_int.1 m1) h
  rw [bind_error] at h
  rcases h with h | ⟨_, _, h⟩
  · exact never (reads hn hk hd floatOr3_ok optFloat_inj m2) (reads_optFloat hn hk hd floatOr3_ok m2) h
  rw [bind_error] at h
  rcases h with h | ⟨_, _, h⟩
  · exact never (reads hn hk hd (interprets_enum _).1 str_inj m3) (reads_str hn hk hd (interprets_enum _).1 m3) h
  rw [bind_error] at h
  rcases h with h | ⟨_, _, h⟩
  · exact never (reads hn hk hd interprets_bool.1 bool_inj m4) (reads_bool hn hk hd interprets_bool.1 m4) h
  rw [bind_error] at h
  rcases h with h | ⟨_, _, h⟩
  · exact .inl (validateHandicap_error ((gameRules_never hn hk hd).2 r hr) h)
  exact specials_error (Q := fun e => e.kind = .controlFile ∨ TooBig W config ["komi", "clop_H"] ∨ ∃ v, showOf W v = .error e)
    (fun o ps m e he => by cases he) (fun e he => .inl he) (fun v e he => .inr (.inr ⟨v, he⟩)) h

/-! ### Values -/

/-- C100: the arguments after the seed: names and values. One without a value is refused. -/
theorem C100_arguments (args : List Str) :
    (∀ l, clopPairs args = some l ↔ args = ArgumentPairs l) ∧ (clopPairs args = none ↔ args.length % 2 = 1) := by
  have h1 : ∀ (n : Nat) (args : List Str), args.length ≤ n → (∀ l, clopPairs args = some l ↔ args = ArgumentPairs l) ∧ (clopPairs args = none ↔ args.length % 2 = 1) := by
    intro n
    induction n with
    | zero =>
      intro args h
      obtain rfl : args = [] := List.length_eq_zero_iff.1 (by omega)
      refine ⟨fun l => ?_, by simp [clopPairs]⟩
      cases l <;> simp [clopPairs, ArgumentPairs]
    | succ n ih =>
      intro args h
      match args with
      | [] =>
        refine ⟨fun l => ?_, by simp [clopPairs]⟩
        cases l <;> simp [clopPairs, ArgumentPairs]
      | [a] =>
        refine ⟨fun l => ?_, by simp [clopPairs]⟩
        cases l <;> simp [clopPairs, ArgumentPairs]
      | a :: b :: rest =>
        obtain ⟨i1, i2⟩ := ih rest (by simp only [List.length_cons] at h; omega)
        constructor
        · intro l
          rw [clopPairs, Option.map_eq_some_iff]
          cases l with
          | nil => simp [ArgumentPairs]
          | cons x l =>
            obtain ⟨x1, x2⟩ := x
            simp only [ArgumentPairs, List.flatMap_cons, List.cons_append, List.nil_append, List.cons.injEq]
            constructor
            · rintro ⟨l', h, h', rfl⟩
              injection h' with h1 h2
              exact ⟨h1, h2, (i1 _).1 h⟩
            · rintro ⟨rfl, rfl, h⟩
              exact ⟨l, (i1 l).2 h, rfl, rfl⟩
        · rw [clopPairs, Option.map_eq_none_iff, i2]
          simp only [List.length_cons]
          omega
  exact h1 _ args (Nat.le_refl _)

theorem clopValue_iff {X : ClopText} {p : ClopParam} {s : Str} {v : Val} : p.interpretValue X s = some v ↔ ClopValue X p s v := by
  unfold ClopParam.interpretValue
  cases hi : p.isInteger with
  | true =>
    simp only [if_true]
    cases hp : parseInt s with
    | error e =>
      simp only [reduceCtorEq, false_iff]
      intro h
      cases h with
      | int _ h => rw [h] at hp; cases hp
      | float h _ => rw [h] at hi; cases hi
    | ok n =>
      simp only [Option.some.injEq]
      constructor
      · rintro rfl; exact .int hi hp
      · intro h
        cases h with
        | int _ h => rw [h] at hp; injection hp with hp; rw [hp]
        | float h _ => rw [h] at hi; cases hi
  | false =>
    simp only [Bool.false_eq_true, if_false, Option.map_eq_some_iff]
    constructor
    · rintro ⟨x, h, rfl⟩; exact .float hi h
    · intro h
      cases h with
      | int h _ => rw [h] at hi; cases hi
      | float _ h => exact ⟨_, h, rfl⟩

/-- C100: the values CLOP gives are accepted exactly when they're for all the parameters, in order, and each can be read as a number of the right kind; and then those are the
values. -/
theorem C100_parameters (X : ClopText) (ps : List ClopParam) (l : List (Str × Str)) (vs : List Val) : interpretClop X ps l = some vs ↔ ClopValues X ps l vs := by
  unfold interpretClop
  induction ps generalizing l vs with
  | nil =>
    cases l with
    | nil =>
      rw [if_neg (by simp), clopValues, Option.some.injEq]
      constructor
      · rintro rfl; exact .nil
      · intro h; cases h; rfl
      · intro p ps name value l h; cases h
    | cons x l =>
      simp only [List.length_cons, List.length_nil, ne_eq, Nat.add_eq_zero_iff, one_ne_zero, and_false, not_false_eq_true, if_true, reduceCtorEq, false_iff]
      intro h; cases h
  | cons p ps ih =>
    cases l with
    | nil =>
      simp only [List.length_cons, List.length_nil, ne_eq, Nat.right_eq_add, Nat.add_eq_zero_iff, one_ne_zero, and_false, not_false_eq_true, if_true, reduceCtorEq, false_iff]
      intro h; cases h
    | cons x l =>
      obtain ⟨name, value⟩ := x
      rw [clopValues]
      by_cases hl : l.length = ps.length
      · rw [if_neg (by simp [hl])]
        have ih' : ∀ vs, clopValues X ps l = some vs ↔ ClopValues X ps l vs := by
          intro vs
          have := ih l vs
          rw [if_neg (by simp [hl])] at this
          exact this
        by_cases hname : name = p.code
        · subst hname
          rw [if_neg (by simp)]
          cases hv : p.interpretValue X value with
          | none =>
            simp only [reduceCtorEq, false_iff]
            intro h
            cases h with
            | cons h _ => rw [clopValue_iff.2 h] at hv; cases hv
          | some v =>
            simp only [Option.map_eq_some_iff]
            constructor
            · rintro ⟨vs', h, rfl⟩; exact .cons (clopValue_iff.1 hv) ((ih' _).1 h)
            · intro h
              cases h with
              | cons h h' =>
                rw [clopValue_iff.2 h] at hv
                exact ⟨_, (ih' _).2 h', by rw [Option.some.inj hv]⟩
        · rw [if_pos hname]
          simp only [reduceCtorEq, false_iff]
          intro h
          cases h with
          | cons _ _ => exact hname rfl
      · rw [if_pos (by simpa using hl)]
        simp only [reduceCtorEq, false_iff]
        intro h
        have hlen : ∀ {ps l vs}, ClopValues X ps l vs → l.length = ps.length := by
          intro ps l vs h
          induction h with
          | nil => rfl
          | cons _ _ ih => simp [ih]
        cases h with
        | cons _ h' => exact hl (hlen h')

theorem clopShown_iff {T : Fns} {X : ClopText} {ps : List ClopParam} {l : List (Str × Str)} {vs : List Val} (h : ClopValues X ps l vs) :
    List.Forall₂ (ClopShown T) (ps.zip vs) ((ps.zip vs).map (fun x => x.1.code ++ ' ' :: displayValue T x.2)) := by
  induction h with
  | nil => exact .nil
  | cons h _ ih =>
    refine .cons ?_ ih
    cases h with
    | int => exact .int
    | float => exact .float

theorem clopCandidate_iff {W : World} {T : Fns} {base : Option Str} {maker : Val} {shown : Str} {seed : Str} {vs : List Val} {p : Gtp.JobPlayer} :
    makeCandidate W T base maker (.ok shown) ('#' :: seed) vs = .ok p ↔ ClopCandidate W T base maker seed vs p := by
  unfold makeCandidate ClopCandidate
  cases hm : T.make maker vs with
  | error tb => exact ⟨(fun h => nomatch h), fun ⟨_, _, h, _⟩ => nomatch h⟩
  | ok v =>
    simp only
    cases hp : makeCandidate.playerConfig v with
    | none =>
      constructor
      · intro h
        simp only at h
        cases hr : T.repr v <;> rw [hr] at h <;> cases h
      · rintro ⟨args, kwargs, h, -⟩
        injection h with h
        rw [playerConfig_iff.2 h] at hp; cases hp
    | some y =>
      obtain ⟨args, kwargs⟩ := y
      simp only
      have hv := playerConfig_iff.1 hp
      constructor
      · intro h
        refine ⟨args, kwargs, by rw [hv], ?_⟩
        cases hq : playerFromConfig W base ('#' :: seed) args kwargs with
        | ok p' => rw [hq] at h; injection h with h; rw [h]
        | error e => rw [hq] at h; cases h
      · rintro ⟨args', kwargs', h, hq⟩
        injection h with h
        rw [playerConfig_iff.2 h] at hp
        have := Option.some.inj hp
        injection this with h1 h2
        subst h1 h2
        rw [hq]

theorem clop_colour {W : World} {T : Fns} {base : Option Str} {code : Str} {config : List (Str × Val)} {t : ClopTuner} (h : ClopOf W T base code config t) : ∃ c, t.base.colour = some c := by
  rcases h.colour with ⟨v, _, h⟩ | ⟨_, h⟩
  · generalize t.base.colour = c at h
    cases h <;> exact ⟨_, rfl⟩
  · cases h

/-- C100: there's a game exactly when the values are accepted, and `make_candidate` describes a player for them. The candidate, whose code is '#' and the seed, has the colour from the
control file, the other player is the opponent, the game's id is the seed, and the settings are those of the control file. The handicap will be accepted by set_handicap, and the players
will get only well-formed words because of the configuration. (Python guarantees that the keyword arguments have different names.) -/
theorem C100_game (W : World) (T : Fns) (X : ClopText) (hW : PythonOK W) (hkw : ∀ maker vs c args kwargs, T.make maker vs = .ok (.quiet c args kwargs) → (kwargs.map Prod.fst).Nodup)
    (base : Option Str) (code : Str) (config : List (Str × Val)) (t : ClopTuner) (h : ClopOf W T base code config t) (seed : Str) (l : List (Str × Str)) (komi : Rat)
    (hk : t.base.rules.komi = .fin komi) :
    ((∃ j, t.game W T X base seed l = .ok j) ↔ ∃ vs p, ClopValues X t.parameters l vs ∧ ClopCandidate W T base t.base.maker seed vs p) ∧
    ∀ vs p, ClopValues X t.parameters l vs → ClopCandidate W T base t.base.maker seed vs p →
      ∃ c job shown, t.game W T X base seed l = .ok (some job) ∧ t.base.colour = some c ∧ p.code = '#' :: seed ∧ TunerJob t.base seed () p c komi (join "; ".toList shown) job ∧
        List.Forall₂ (ClopShown T) (t.parameters.zip vs) shown ∧ (∀ k, job.handicap = some k → HandicapOK job.boardSize k job.handicapIsFree) ∧ ∀ c, GoodWords (job.player c) := by
  have main : ∀ vs p, ClopValues X t.parameters l vs → ClopCandidate W T base t.base.maker seed vs p →
      ∃ c job shown, t.game W T X base seed l = .ok (some job) ∧ t.base.colour = some c ∧ p.code = '#' :: seed ∧ TunerJob t.base seed () p c komi (join "; ".toList shown) job ∧
        List.Forall₂ (ClopShown T) (t.parameters.zip vs) shown ∧ (∀ k, job.handicap = some k → HandicapOK job.boardSize k job.handicapIsFree) ∧ ∀ c, GoodWords (job.player c) := by
    intro vs p hv hp
    obtain ⟨c, hc⟩ := clop_colour h
    have hp' := hp
    obtain ⟨args, kwargs, hm, hq⟩ := hp'
    have hn := hkw _ _ _ _ _ hm
    have hcode : p.code = '#' :: seed := ((C74_player W base ('#' :: seed) args kwargs hn).1 p hq).2.code
    have hw : GoodWords p := fun komi hk => C74_words W base ('#' :: seed) args kwargs hn p hq komi hk
    obtain ⟨o, _, ho⟩ := h.opponent
    obtain ⟨job, c', h1, h2, h3, h4, h5⟩ := job_core hW h.competition h.rules ⟨o, ho⟩ seed () p (by rw [hcode]; exact List.mem_cons_self ..) hw .w (formatClop T t.parameters vs) komi hk
    obtain rfl : c' = c := by
      rcases h2 with h2 | ⟨h2, _⟩
      · rw [hc] at h2; exact (Option.some.inj h2).symm
      · rw [hc] at h2; cases h2
    refine ⟨c', job, _, ?_, hc, hcode, h3, clopShown_iff hv, h4, h5⟩
    unfold ClopTuner.game
    rw [(C100_parameters _ _ _ _).2 hv]
    simp only
    rw [clopCandidate_iff.2 hp]
    simp only
    rw [h1]
  refine ⟨⟨?_, ?_⟩, main⟩
  · rintro ⟨j, hj⟩
    unfold ClopTuner.game at hj
    cases hv : interpretClop X t.parameters l with
    | none => rw [hv] at hj; cases hj
    | some vs =>
      rw [hv] at hj
      simp only at hj
      cases hp : makeCandidate W T base t.base.maker (.ok (formatClop T t.parameters vs)) ('#' :: seed) vs with
      | error e => rw [hp] at hj; cases hj
      | ok p => exact ⟨vs, p, (C100_parameters _ _ _ _).1 hv, clopCandidate_iff.1 hp⟩
  · rintro ⟨vs, p, h1, h2⟩
    obtain ⟨_, job, _, h, _⟩ := main vs p h1 h2
    exact ⟨_, h⟩

/-- C100: "W" is for a win for the candidate, "L" for a win for the opponent, and "D" for a game which nobody won, if it was a jigo or `stop_on_error` is set; otherwise it's an error. -/
theorem C100_message (candidate : Colour) (stopOnError : Bool) (r : Res) :
    (∀ m, clopMessage candidate stopOnError r = some m ↔ ClopReply candidate stopOnError r m) ∧
    (clopMessage candidate stopOnError r = none ↔ r.winningColour = none ∧ r.isJigo = false ∧ stopOnError = false) := by
  unfold clopMessage
  have hne : candidate.opponent ≠ candidate := by cases candidate <;> decide
  cases hw : r.winningColour with
  | some c =>
    by_cases hc : c = candidate
    · subst hc
      rw [if_pos rfl]
      refine ⟨fun m => ⟨?_, ?_⟩, by simp⟩
      · intro h; rw [← Option.some.inj h]; exact .win hw
      · intro h
        cases h with
        | win _ => rfl
        | loss h => rw [hw] at h; exact absurd (Option.some.inj h).symm hne
        | draw h _ => rw [hw] at h; cases h
    · have ho : c = candidate.opponent := by cases c <;> cases candidate <;> first | rfl | exact absurd rfl hc
      subst ho
      rw [if_neg (by intro h; exact hc (Option.some.inj h)), if_pos rfl]
      refine ⟨fun m => ⟨?_, ?_⟩, by simp⟩
      · intro h; rw [← Option.some.inj h]; exact .loss hw
      · intro h
        cases h with
        | win h => rw [hw] at h; exact absurd (Option.some.inj h) hne
        | loss h => rfl
        | draw h _ => rw [hw] at h; cases h
  | none =>
    rw [if_neg (by simp), if_neg (by simp)]
    have hm : ∀ {m}, ClopReply candidate stopOnError r m ↔ m = 'D' ∧ (r.isJigo = true ∨ stopOnError = true) := by
      intro m
      constructor
      · intro h
        cases h with
        | win h => rw [hw] at h; cases h
        | loss h => rw [hw] at h; cases h
        | draw _ h => exact ⟨rfl, h⟩
      · rintro ⟨rfl, h⟩; exact .draw hw h
    simp only [hm]
    cases r.isJigo <;> cases stopOnError <;> simp [eq_comm]

/-! ### The ringmaster -/

theorem clop_paths {control : Str} {P : Paths} (h : pathsOf control = .ok P) (x : Str) (hx : '/' ∉ x) : Gtp.pathJoin P.base P.code ++ x = inside P.base (P.code ++ x) ∧ '/' ∉ P.code ++ x := by
  obtain ⟨name, ext, hl, he, -⟩ := pathsOf_iff.1 h
  have hc : '/' ∉ P.code := fun hm => located_name hl (by rw [ext_append he]; exact List.mem_append_left _ hm)
  refine ⟨by rw [pathJoin_inside hc, inside_append], ?_⟩
  intro hm
  rcases List.mem_append.1 hm with hm | hm
  · exact hc hm
  · exact hx hm

theorem loadClop_ok {C : ControlWorld Unit} {T : Fns} (hkw : ∀ v l, C.world.listOf v = some l → Kwargs l) {control : Str} {P : Paths} (hP : pathsOf control = .ok P) {r : ClopRingmaster} :
    loadClop C T P = .ok r ↔ ∃ config, ClopMadeFrom C T control r config := by
  have hlog := (clop_paths hP ".elog".toList (by decide +kernel)).1
  have hctl := paths_control hP
  constructor
  · intro h
    unfold loadClop at h
    rw [hctl] at h
    cases hr : C.read control with
    | error e => rw [hr] at h; cases h
    | ok source =>
      rw [hr] at h; simp only at h
      cases hp : parseCompetitionType source with
      | none => rw [hp] at h; cases h
      | some type =>
        rw [hp] at h; simp only at h
        by_cases ht : type = "clop_tuner".toList
        · rw [if_neg (by simpa using ht)] at h
          subst ht
          cases hu : Sgf.utf8Valid source with
          | false => rw [hu] at h; cases h
          | true =>
            rw [hu] at h
            simp only [Bool.not_true, Bool.false_eq_true, if_false] at h
            cases he : C.exec "clop_tuner".toList source with
            | error e => rw [he] at h; cases h
            | ok config =>
              rw [he] at h; simp only at h
              cases hs : sameType config "clop_tuner".toList with
              | false => rw [hs] at h; cases h
              | true =>
                rw [hs] at h
                simp only [Bool.not_true, Bool.false_eq_true, if_false] at h
                cases hf : handled C (ringmasterFlags C.world config) with
                | error e => rw [hf] at h; cases h
                | ok flags =>
                  rw [hf] at h; simp only at h
                  cases hi : handled C (initClop C.world T (some P.base) P.code config) with
                  | error e => rw [hi] at h; cases h
                  | ok tuner =>
                    rw [hi] at h
                    injection h with h
                    subst h
                    obtain ⟨f1, f2, f3⟩ := flags
                    obtain ⟨g1, g2, g3⟩ := flags_ok.1 (handled_ok.1 hf)
                    exact ⟨config, ⟨P, hP, by rw [hlog, hctl]⟩, ⟨source, hr, parse_iff.1 hp, hu, he, sameType_iff.1 hs⟩, g1, g2, ⟨f3, g3⟩, (C100_config _ _ hkw _ _ _ _).1 (handled_ok.1 hi)⟩
        · rw [if_pos (by simpa using ht)] at h; cases h
  · rintro ⟨config, ⟨P', hP', hpp⟩, ⟨source, hr, ht, hu, he, hs⟩, g1, g2, ⟨f3, g3⟩, hd⟩
    rw [hP] at hP'; injection hP' with hP'; subst hP'
    unfold loadClop
    rw [hctl, hr]; simp only
    rw [parse_iff.2 ht]; simp only
    rw [if_neg (by simp), hu]
    simp only [Bool.not_true, Bool.false_eq_true, if_false]
    rw [he]; simp only
    rw [sameType_iff.2 hs]
    simp only [Bool.not_true, Bool.false_eq_true, if_false]
    rw [handled_ok.2 (flags_ok.2 ⟨g1, g2, g3⟩)]; simp only
    have hd' := (C100_config _ _ hkw _ _ _ _).2 hd
    rw [hpp] at hd'
    rw [handled_ok.2 hd']
    simp only
    rw [hctl] at hpp
    rw [hlog, ← hpp]

theorem handled_kinds {C : ControlWorld Unit} {α : Type} {x : Except Err α} {e : RmExc} (h : handled C x = .error e) : (∃ m, e = .ringmaster m) ∨ ∃ m, e = .controlFile m := by
  unfold handled at h
  split at h
  · cases h
  · injection h with h
    subst h
    split
    · exact .inr ⟨_, rfl⟩
    · exact .inl ⟨_, rfl⟩

theorem loadClop_error {C : ControlWorld Unit} {T : Fns} {P : Paths} {e : RmExc} (h : loadClop C T P = .error e) : (∃ m, e = .ringmaster m) ∨ ∃ m, e = .controlFile m := by
  unfold loadClop at h
  split at h
  · injection h with h; exact .inl ⟨_, h.symm⟩
  split at h
  · injection h with h; exact .inr ⟨_, h.symm⟩
  split at h
  · injection h with h; exact .inr ⟨_, h.symm⟩
  split at h
  · injection h with h; exact .inr ⟨_, h.symm⟩
  split at h
  · injection h with h; exact .inr ⟨_, h.symm⟩
  split at h
  · injection h with h; exact .inr ⟨_, h.symm⟩
  split at h
  · injection h with h; subst h; exact handled_kinds (by assumption)
  split at h
  · injection h with h; subst h; exact handled_kinds (by assumption)
  · cases h

/-- C100: when a Clop_ringmaster can be made from a control file, and what it is. Otherwise there's a RingmasterError. -/
theorem C100_ringmaster (C : ControlWorld Unit) (T : Fns) (hkw : ∀ v l, C.world.listOf v = some l → Kwargs l) (control : Str) :
    (∀ r, newClop C T control = .ok r ↔ ∃ config, ClopMadeFrom C T control r config) ∧ (∀ e, newClop C T control = .error e → ∃ m, e = .ringmaster m) := by
  unfold newClop
  cases hp : pathsOf control with
  | error e =>
    simp only
    refine ⟨fun r => ⟨(fun h => nomatch h), ?_⟩, ?_⟩
    · rintro ⟨_, ⟨P, h, _⟩, _⟩; rw [hp] at h; cases h
    · intro e' h
      injection h with h; subst h
      obtain ⟨_, _, _, _, _, _, _, h⟩ := ((C77_paths control).2 e).1 hp
      exact ⟨_, h⟩
  | ok P =>
    simp only
    constructor
    · intro r
      rw [← loadClop_ok hkw hp]
      cases hl : loadClop C T P with
      | error e => cases e <;> simp
      | ok r' => simp
    · intro e h
      cases hl : loadClop C T P with
      | error e' =>
        rw [hl] at h
        cases e' with
        | ringmaster m => injection h with h; exact ⟨_, h.symm⟩
        | controlFile m => injection h with h; exact ⟨_, h.symm⟩
        | other => rcases loadClop_error hl with ⟨_, h⟩ | ⟨_, h⟩ <;> cases h
      | ok r => rw [hl] at h; cases h

/-- C100: the log isn't any of the other files, but neither it nor the .clop file is protected: if the control file's own extension is .elog or .clop, they are the control file. -/
theorem C100_files (control : Str) (P : Paths) (h : pathsOf control = .ok P) (x : String) (hx : x = ".elog" ∨ x = ".clop") :
    inside P.base (P.code ++ x.toList) ∉ outputs P ∧ Located (inside P.base (P.code ++ x.toList)) P.base (P.code ++ x.toList) ∧
    (Located control P.base (P.code ++ x.toList) ↔ ∃ name, Located control P.base name ∧ Ext name P.code x.toList) := by
  have hx' : '/' ∉ x.toList := by rcases hx with rfl | rfl <;> decide +kernel
  obtain ⟨name, ext, hl, he, _, _, ho⟩ := pathsOf_iff.1 h
  have hloc := located_inside hl (clop_paths h x.toList hx').2
  refine ⟨?_, hloc, ?_⟩
  · intro hm
    rw [ho, List.mem_map] at hm
    obtain ⟨y, hy, e⟩ := hm
    have := (located_inj hloc e.symm (output_located h hy)).2
    have := String.toList_inj.1 (List.append_cancel_left this)
    subst this
    have : ∀ y ∈ outputExtensions, ¬ (y = ".elog" ∨ y = ".clop") := by decide +kernel
    exact this x hy hx
  · constructor
    · intro h'
      obtain ⟨_, hn⟩ := located_unique h' hl
      refine ⟨_, h', ?_⟩
      rw [ext_append he] at hn
      have hext := List.append_cancel_left hn
      rw [hext]
      rw [ext_append he] at hl
      rw [← ext_append he]
      exact he
    · rintro ⟨n, h1, h2⟩
      rw [← ext_append h2]; exact h1

/-! ### Output -/

/-- C100: the job: it's named after the competition and the seed; if games are recorded, it says where; if stderr goes to the log, that is the .elog file. -/
theorem C100_prepare (W : World) (T : Fns) (X : ClopText) (r : ClopRingmaster) (seed : Str) (l : List (Str × Str)) (job : Gtp.GameJob Unit)
    (h : r.tuner.game W T X (some r.paths.base) seed l = .ok (some job)) :
    (r.prepare job).sgfGameName = some (r.paths.code ++ " ".toList ++ seed) ∧
    (r.prepare job).sgfFilename = (if r.recordGames then some (seed ++ ".sgf".toList) else none) ∧
    (r.prepare job).sgfDirname = (if r.recordGames then some r.paths.sgfDir else none) ∧
    (r.prepare job).voidSgfDirname = (if r.recordGames then some r.paths.voidDir else none) ∧
    (r.prepare job).stderrPathname = (if r.stderrToLog then some r.paths.log else none) ∧
    (r.prepare job).gtpLogPathname = none ∧
    { r.prepare job with sgfGameName := job.sgfGameName, sgfFilename := job.sgfFilename, sgfDirname := job.sgfDirname, voidSgfDirname := job.voidSgfDirname, stderrPathname := job.stderrPathname } = job := by
  have hj : job.gameId = seed ∧ job.sgfFilename = none ∧ job.sgfDirname = none ∧ job.voidSgfDirname = none ∧ job.stderrPathname = none ∧ job.gtpLogPathname = none := by
    unfold ClopTuner.game at h
    cases hv : interpretClop X r.tuner.parameters l with
    | none => rw [hv] at h; cases h
    | some vs =>
      rw [hv] at h
      simp only at h
      cases hp : makeCandidate W T (some r.paths.base) r.tuner.base.maker (.ok (formatClop T r.tuner.parameters vs)) ('#' :: seed) vs with
      | error e => rw [hp] at h; cases h
      | ok p =>
        rw [hp] at h
        simp only at h
        injection h with h
        unfold TunerBase.job at h
        split at h
        · have h := Option.some.inj h
          subst h
          exact ⟨rfl, rfl, rfl, rfl, rfl, rfl⟩
        · cases h
  obtain ⟨h1, h2, h3, h4, h5, h6⟩ := hj
  clear h
  cases job
  simp only at h1 h2 h3 h4 h5 h6
  subst h1 h2 h3 h4 h5 h6
  unfold ClopRingmaster.prepare sgfFilename
  cases r.recordGames <;> cases r.stderrToLog <;> exact ⟨by simp, rfl, rfl, rfl, rfl, rfl, rfl⟩

theorem prepare_log (r : ClopRingmaster) (job : Gtp.GameJob Unit) : (r.prepare job).gameId = job.gameId ∧ (r.prepare job).player = job.player := by
  unfold ClopRingmaster.prepare
  cases r.recordGames <;> cases r.stderrToLog <;> exact ⟨rfl, rfl⟩

/-- C100: exit status 0 means that a game was played, and what's printed says who won it; otherwise "Error" is printed, so that CLOP doesn't take it for a game's result. The exit status
is 4 only if `make_candidate` gave an object which can't be shown, or the job failed with an unexpected exception. -/
theorem C100_reply {σ : Type} (V : ClopWorld σ) (hkw : ∀ v l, V.control.world.listOf v = some l → Kwargs l) (fuel : Nat) (control : Str) (arguments : List Str) :
    (∀ out log, clopMain V fuel control arguments = some (out, 0, log) ↔
      ∃ r job x c m, ClopPlayed V fuel control arguments r job x ∧ r.tuner.base.colour = some c ∧ ClopReply c r.tuner.stopOnError x.gameResult.res m ∧ out = [m, '\n'] ∧ log = ClopLog job x) ∧
    (∀ out status log, clopMain V fuel control arguments = some (out, status, log) → status ≠ 0 →
      out = "Error\n".toList ∧ (status = 1 ∨ (status = 4 ∧ ∃ r, newClop V.control V.fns control = .ok r ∧ ∃ seed l,
        (∃ e, r.tuner.game V.control.world V.fns V.text (some r.paths.base) seed l = .error (.other e)) ∨
        ∃ job st, r.tuner.game V.control.world V.fns V.text (some r.paths.base) seed l = .ok (some job) ∧ Gtp.runJob V.job (r.prepare job) none fuel = some (.crashed, st)))) := by
  unfold clopMain
  cases hex : V.exist control with
  | false =>
    simp only [Bool.not_false, if_true]
    refine ⟨fun out log => ⟨?_, ?_⟩, ?_⟩
    · intro h; cases h
    · rintro ⟨r, job, x, c, m, h, _⟩; rw [h.found] at hex; cases hex
    · intro out status log h _
      have h := Option.some.inj h
      injection h with h1 h2; injection h2 with h2 h3
      exact ⟨h1.symm, .inl h2.symm⟩
  | true =>
    simp only [Bool.not_true, Bool.false_eq_true, if_false]
    cases hr : newClop V.control V.fns control with
    | error e =>
      obtain ⟨m, rfl⟩ := (C100_ringmaster _ _ hkw control).2 e hr
      simp only
      refine ⟨fun out log => ⟨?_, ?_⟩, ?_⟩
      · intro h; cases h
      · rintro ⟨r, job, x, c, m, h, _⟩; have h := h.ringmaster; rw [hr] at h; cases h
      · intro out status log h _
        have h := Option.some.inj h
        injection h with h1 h2; injection h2 with h2 h3
        exact ⟨h1.symm, .inl h2.symm⟩
    | ok r =>
      obtain ⟨config, hmade⟩ := ((C100_ringmaster _ _ hkw control).1 r).1 hr
      obtain ⟨c, hc⟩ := clop_colour hmade.tuner
      have hchoose : r.tuner.base.chooseColour .w = c := by unfold TunerBase.chooseColour; rw [hc]; rfl
      -- how the game goes
      have key : ∀ o log, r.runGame V fuel arguments = some (o, log) →
          ((∃ m, o = .message m) → ∃ job x m, o = .message m ∧ ClopPlayed V fuel control arguments r job x ∧ ClopReply c r.tuner.stopOnError x.gameResult.res m ∧ log = ClopLog job x) ∧
          (o = .otherError → ∃ seed l, (∃ e, r.tuner.game V.control.world V.fns V.text (some r.paths.base) seed l = .error (.other e)) ∨
            ∃ job st, r.tuner.game V.control.world V.fns V.text (some r.paths.base) seed l = .ok (some job) ∧ Gtp.runJob V.job (r.prepare job) none fuel = some (.crashed, st)) := by
        intro o log h
        unfold ClopRingmaster.runGame at h
        match arguments with
        | [] => cases h; exact ⟨(fun ⟨_, h⟩ => nomatch h), (fun h => nomatch h)⟩
        | [_] => cases h; exact ⟨(fun ⟨_, h⟩ => nomatch h), (fun h => nomatch h)⟩
        | processor :: seed :: rest =>
          simp only at h
          cases hpairs : clopPairs rest with
          | none => rw [hpairs] at h; cases h; exact ⟨(fun ⟨_, h⟩ => nomatch h), (fun h => nomatch h)⟩
          | some l =>
            rw [hpairs] at h; simp only at h
            cases hlog : V.openLog r.paths.log with
            | false => rw [hlog] at h; cases h; exact ⟨(fun ⟨_, h⟩ => nomatch h), (fun h => nomatch h)⟩
            | true =>
              rw [hlog] at h; simp only [if_true] at h
              unfold ClopRingmaster.run at h
              cases hg : r.tuner.game V.control.world V.fns V.text (some r.paths.base) seed l with
              | error e =>
                rw [hg] at h
                cases e with
                | competition _ => cases h; exact ⟨(fun ⟨_, h⟩ => nomatch h), (fun h => nomatch h)⟩
                | other e => cases h; exact ⟨(fun ⟨_, h⟩ => nomatch h), fun _ => ⟨seed, l, .inl ⟨e, hg⟩⟩⟩
              | ok j =>
                rw [hg] at h
                cases j with
                | none => cases h
                | some job =>
                  simp only at h
                  cases hrun : Gtp.runJob V.job (r.prepare job) none fuel with
                  | none => rw [hrun] at h; cases h
                  | some y =>
                    obtain ⟨out, st⟩ := y
                    rw [hrun] at h
                    simp only at h
                    have h := Option.some.inj h
                    unfold clopResult at h
                    cases out with
                    | failed _ => cases h; exact ⟨(fun ⟨_, h⟩ => nomatch h), (fun h => nomatch h)⟩
                    | crashed => cases h; exact ⟨(fun ⟨_, h⟩ => nomatch h), fun _ => ⟨seed, l, .inr ⟨job, st, hg, hrun⟩⟩⟩
                    | result x =>
                      simp only at h
                      rw [hchoose] at h
                      cases hm : clopMessage c r.tuner.stopOnError x.gameResult.res with
                      | none => rw [hm] at h; cases h; exact ⟨(fun ⟨_, h⟩ => nomatch h), (fun h => nomatch h)⟩
                      | some m =>
                        rw [hm] at h
                        injection h with h1 h2
                        subst h1 h2
                        refine ⟨fun _ => ⟨job, x, m, rfl, ⟨hex, hr, hlog, ⟨processor, seed, l, ?_, hg⟩, st, hrun⟩, ((C100_message _ _ _).1 m).1 hm, ?_⟩, (fun h => nomatch h)⟩
                        · rw [((C100_arguments rest).1 l).1 hpairs]
                        · unfold clopStart ClopLog
                          rw [(prepare_log r job).1, (prepare_log r job).2]
                          simp only [List.cons_append, List.nil_append]
      constructor
      · intro out log
        constructor
        · intro h
          cases hg : r.runGame V fuel arguments with
          | none => simp only [hg] at h; cases h
          | some y =>
            obtain ⟨o, log'⟩ := y
            simp only [hg] at h
            cases o with
            | message m =>
              simp only at h
              have h := Option.some.inj h
              injection h with h1 h2; injection h2 with h2 h3
              subst h1 h3
              obtain ⟨job, x, m', e, h1, h2, h3⟩ := (key _ _ hg).1 ⟨m, rfl⟩
              injection e with e; subst e
              exact ⟨r, job, x, c, m, h1, hc, h2, rfl, h3⟩
            | ringmasterError => cases h
            | otherError => cases h
        · rintro ⟨r', job, x, c', m, hp, hc', hm, rfl, rfl⟩
          have := hp.ringmaster
          rw [hr] at this; injection this with this; subst this
          rw [hc] at hc'; have hc' := Option.some.inj hc'; subst hc'
          obtain ⟨processor, seed, l, rfl, hg⟩ := hp.game
          obtain ⟨st, hrun⟩ := hp.result
          have : r.runGame V fuel (processor :: seed :: ArgumentPairs l) = some (.message m, ClopLog job x) := by
            unfold ClopRingmaster.runGame
            simp only
            rw [((C100_arguments _).1 l).2 rfl]
            simp only
            rw [hp.log]
            simp only [if_true]
            unfold ClopRingmaster.run
            rw [hg]; simp only
            rw [hrun]; simp only
            unfold clopResult
            simp only
            rw [hchoose, ((C100_message _ _ _).1 m).2 hm]
            unfold clopStart ClopLog
            rw [(prepare_log r job).1, (prepare_log r job).2]
            simp only [List.cons_append, List.nil_append]
          simp only [this]
      · intro out status log h hs
        cases hg : r.runGame V fuel arguments with
        | none => simp only [hg] at h; cases h
        | some y =>
          obtain ⟨o, log'⟩ := y
          simp only [hg] at h
          cases o with
          | message m =>
            simp only at h
            have h := Option.some.inj h
            injection h with h1 h2; injection h2 with h2 h3
            exact absurd h2.symm hs
          | ringmasterError =>
            simp only at h
            have h := Option.some.inj h
            injection h with h1 h2; injection h2 with h2 h3
            exact ⟨h1.symm, .inl h2.symm⟩
          | otherError =>
            simp only at h
            have h := Option.some.inj h
            injection h with h1 h2; injection h2 with h2 h3
            exact ⟨h1.symm, .inr ⟨h2.symm, r, rfl, (key _ _ hg).2 rfl⟩⟩

/-! ### The .clop file -/

theorem clopLine_iff {X : ClopText} {W : World} {args : List Val} {kwargs : List (Str × Val)} {p : ClopParam} (h : ClopParamIs W args kwargs p) : ClopLine X p (p.forClop X) := by
  unfold ClopParam.forClop
  cases hi : p.isInteger with
  | false => exact .float hi
  | true =>
    obtain ⟨⟨a, ha⟩, ⟨b, hb⟩⟩ := h.whole hi
    have : ClopLine X p (p.type ++ ' ' :: p.code ++ ' ' :: strInt a ++ ' ' :: strInt b) := .int hi ha hb
    simp only [if_true, ha, hb, wholeText, Rat.floor_intCast]
    exact this

theorem processorLines (n : Int) : ∃ l, ProcessorLines n l ∧ processorSpecs n = join ['\n'] l ∧ l ≠ [] := by
  by_cases hn : 0 < n
  · refine ⟨(List.range n.toNat).map (fun i : Nat => "Processor par".toList ++ strInt i), .inl ⟨hn, ?_, ?_⟩, rfl, ?_⟩
    · rw [List.length_map, List.length_range]; omega
    · intro i h
      rw [List.getElem_map, List.getElem_range]
    · intro h
      have := congrArg List.length h
      rw [List.length_map, List.length_range, List.length_nil] at this
      omega
  · refine ⟨[[]], .inr ⟨by omega, rfl⟩, ?_, by simp⟩
    have : n.toNat = 0 := by omega
    unfold processorSpecs
    rw [this]
    rfl

theorem join_two {sep : Str} {a b : List Str} (ha : a ≠ []) (hb : b ≠ []) : join sep (a ++ b) = join sep a ++ sep ++ join sep b := by
  induction a with
  | nil => exact absurd rfl ha
  | cons x a ih =>
    cases a with
    | nil =>
      cases b with
      | nil => exact absurd rfl hb
      | cons y b => simp [join]
    | cons y a =>
      have := ih (by simp)
      simp only [List.cons_append] at this ⊢
      rw [join, this, join]
      simp [List.append_assoc]

theorem join_five {sep : Str} {a b c d : List Str} (hb : b ≠ []) (hc : c ≠ []) (ha : a ≠ []) (hd : d ≠ []) :
    join sep (a ++ b ++ [[]] ++ c ++ d) = join sep a ++ sep ++ join sep b ++ sep ++ sep ++ join sep c ++ sep ++ join sep d := by
  rw [join_two (by simp [hc]) hd, join_two (by simp) hc, join_two (by simp [ha]) (by simp), join_two ha hb]
  simp only [join, List.append_nil]

theorem drawElo_iff {komi : Num} {stop : Bool} {elo : Str} : drawElo komi stop = some elo ↔
    ∃ q, komi = .fin q ∧ (elo = "100".toList ∧ ((∃ n : Int, q = n) ∨ stop = true) ∨ elo = "0".toList ∧ (∀ n : Int, q ≠ n) ∧ stop = false) := by
  unfold drawElo
  cases komi with
  | fin q =>
    have hq : q = (q.floor : Rat) ↔ ∃ n : Int, q = n := by
      constructor
      · intro h; exact ⟨_, h⟩
      · rintro ⟨n, rfl⟩; rw [Rat.floor_intCast]
    simp only [Option.some.injEq, Num.fin.injEq, exists_eq_left']
    by_cases h : q = (q.floor : Rat)
    · have h' := hq.1 h
      rw [if_pos (by simp [← h])]
      constructor
      · intro e; exact .inl ⟨e.symm, .inl h'⟩
      · rintro (⟨e, _⟩ | ⟨_, e, _⟩)
        · exact e.symm
        · obtain ⟨n, h'⟩ := h'; exact absurd h' (e n)
    · have h' : ∀ n : Int, q ≠ n := fun n e => h (hq.2 ⟨n, e⟩)
      cases stop with
      | true =>
        rw [if_pos (by simp)]
        constructor
        · intro e; exact .inl ⟨e.symm, .inr rfl⟩
        · rintro (⟨e, _⟩ | ⟨_, _, e⟩)
          · exact e.symm
          · cases e
      | false =>
        rw [if_neg (by simpa using h)]
        constructor
        · intro e; exact .inr ⟨e.symm, h', rfl⟩
        · rintro (⟨_, ⟨n, e⟩ | e⟩ | ⟨e, _⟩)
          · exact absurd e (h' n)
          · cases e
          · exact e.symm
  | _ => exact ⟨(fun h => nomatch h), fun ⟨_, h, _⟩ => nomatch h⟩

/-- C100: the .clop file: the name, the command to play a game, a line for each parameter and each processor, and the settings. There is one unless komi is an infinity or a NaN. -/
theorem C100_setup (W : World) (T : Fns) (X : ClopText) (base : Option Str) (code : Str) (config : List (Str × Val)) (t : ClopTuner) (h : ClopOf W T base code config t) (script control : Str) :
    (∀ text, t.setup T X script control = some text → ClopFile T X script control t text) ∧ (t.setup T X script control = none ↔ ∀ q, t.base.rules.komi ≠ .fin q) := by
  obtain ⟨procs, hp1, hp2, hp3⟩ := processorLines t.parallel
  have hps : ∃ params, List.Forall₂ (ClopLine X) t.parameters params ∧ t.parameters.map (ClopParam.forClop X) = params ∧ params ≠ [] := by
    obtain ⟨v, l, _, _, hne, _, hall⟩ := h.parameters
    have hall' : List.Forall₂ (ClopLine X) t.parameters (t.parameters.map (ClopParam.forClop X)) := by
      have hall2 := hall
      generalize t.parameters = ps at hall2
      clear * - hall2
      induction hall2 with
      | nil => exact .nil
      | cons h _ ih =>
        obtain ⟨args, kwargs, _, h⟩ := h
        exact .cons (clopLine_iff h) ih
    refine ⟨_, hall', rfl, ?_⟩
    intro e
    have h1 := hall.length_eq
    have h2 := congrArg List.length e
    rw [List.length_map, List.length_nil] at h2
    rw [h2] at h1
    exact hne (List.length_eq_zero_iff.1 h1)
  obtain ⟨params, hq1, hq2, hq3⟩ := hps
  unfold ClopTuner.setup
  constructor
  · intro text ht
    cases he : drawElo t.base.rules.komi t.stopOnError with
    | none => rw [he] at ht; cases ht
    | some elo =>
      rw [he] at ht
      have ht := Option.some.inj ht
      refine ⟨⟨(pathSplit control).1, (pathSplit control).2, params, procs, elo, showH T t.clopH, located_split.1 rfl, hq1, hp1, drawElo_iff.1 he, ?_, ?_⟩⟩
      · cases t.clopH with
        | none => exact .inl ⟨rfl, rfl⟩
        | some x => exact .inr ⟨x, rfl, rfl⟩
      rw [← ht, hq2, hp2]
      rw [join_five hq3 hp3 (by simp) (by simp)]
      have e1 : "\n\n".toList = ['\n', '\n'] := by decide
      have e2 : " run-game\n\n".toList = " run-game".toList ++ ['\n', '\n'] := by decide
      have e3 : "Replications 1\n\n".toList = "Replications 1".toList ++ ['\n', '\n'] := by decide
      have e4 : " ".toList = [' '] := by decide
      rw [e1, e2, e3, e4]
      generalize showH T t.clopH = hh
      generalize (if t.stopOnError = true then "true".toList else "false".toList) = ss
      simp only [join, List.append_assoc, List.cons_append, List.nil_append]
  · cases he : drawElo t.base.rules.komi t.stopOnError with
    | none =>
      simp only [true_iff]
      intro q hq
      rw [hq] at he
      cases he
    | some elo =>
      obtain ⟨q, hq, _⟩ := drawElo_iff.1 he
      simp only [reduceCtorEq, false_iff]
      intro hall
      exact hall q hq

/-! ### The command line -/

theorem option_iff {a : Str} (h : a ≠ "--".toList) : (a.head? = some '-' ∧ 1 < a.length) ↔ IsOption a := by
  unfold IsOption
  match a with
  | [] => simp
  | [c] => simp
  | c :: d :: s =>
    simp only [List.head?_cons, Option.some.injEq, List.length_cons, List.cons.injEq]
    constructor
    · rintro ⟨rfl, _⟩; exact ⟨h, d, s, rfl, rfl, rfl⟩
    · rintro ⟨_, _, _, rfl, _⟩; exact ⟨rfl, by omega⟩

/-- C100: the arguments, if none before the first "--" starts with "-" (other than just "-"); that "--" is left out. -/
theorem C100_options (argv args : List Str) : positionals argv = some args ↔
    (("--".toList ∉ argv ∧ (∀ a ∈ argv, ¬ IsOption a) ∧ args = argv) ∨
     ∃ pre post, argv = pre ++ "--".toList :: post ∧ "--".toList ∉ pre ∧ (∀ a ∈ pre, ¬ IsOption a) ∧ args = pre ++ post) := by
  induction argv generalizing args with
  | nil =>
    rw [positionals]
    constructor
    · intro h; exact .inl ⟨by simp, by simp, (Option.some.inj h).symm⟩
    · rintro (⟨_, _, rfl⟩ | ⟨pre, post, h, _⟩)
      · rfl
      · simp at h
  | cons a l ih =>
    rw [positionals]
    generalize hd : "--".toList = dd at *
    by_cases ha : a = dd
    · subst ha
      rw [if_pos rfl]
      constructor
      · intro h; exact .inr ⟨[], l, rfl, by simp, by simp, (Option.some.inj h).symm⟩
      · rintro (⟨h, _⟩ | ⟨pre, post, h, h1, _, rfl⟩)
        · exact absurd (List.mem_cons_self ..) h
        · cases pre with
          | nil => simp only [List.nil_append, List.cons.injEq, true_and] at h; rw [h]; rfl
          | cons x pre =>
            injection h with h h'
            subst h
            exact absurd (List.mem_cons_self ..) h1
    · rw [if_neg ha]
      by_cases ho : a.head? = some '-' ∧ 1 < a.length
      · rw [if_pos ho]
        have hopt := (option_iff (hd ▸ ha)).1 ho
        simp only [reduceCtorEq, false_iff]
        rintro (⟨_, h, _⟩ | ⟨pre, post, h, _, h1, _⟩)
        · exact h a (List.mem_cons_self ..) hopt
        · cases pre with
          | nil => simp only [List.nil_append, List.cons.injEq] at h; exact ha h.1
          | cons x pre =>
            injection h with h h'
            subst h
            exact h1 a (List.mem_cons_self ..) hopt
      · rw [if_neg ho]
        have hopt : ¬ IsOption a := fun h => ho ((option_iff (hd ▸ ha)).2 h)
        rw [Option.map_eq_some_iff]
        constructor
        · rintro ⟨args', h, rfl⟩
          rcases (ih args').1 h with ⟨h1, h2, rfl⟩ | ⟨pre, post, h1, h2, h3, rfl⟩
          · refine .inl ⟨?_, ?_, rfl⟩
            · intro hm; rcases List.mem_cons.1 hm with hm | hm; exacts [ha hm.symm, h1 hm]
            · intro x hx; rcases List.mem_cons.1 hx with rfl | hx; exacts [hopt, h2 x hx]
          · subst h1
            refine .inr ⟨a :: pre, post, rfl, ?_, ?_, rfl⟩
            · intro hm; rcases List.mem_cons.1 hm with hm | hm; exacts [ha hm.symm, h2 hm]
            · intro x hx; rcases List.mem_cons.1 hx with rfl | hx; exacts [hopt, h3 x hx]
        · rintro (⟨h1, h2, rfl⟩ | ⟨pre, post, h1, h2, h3, rfl⟩)
          · exact ⟨l, (ih l).2 (.inl ⟨fun h => h1 (List.mem_cons_of_mem _ h), fun x hx => h2 x (List.mem_cons_of_mem _ hx), rfl⟩), rfl⟩
          · cases pre with
            | nil => simp only [List.nil_append, List.cons.injEq] at h1; exact absurd h1.1 ha
            | cons x pre =>
              injection h1 with h h'
              subst h
              exact ⟨pre ++ post, (ih _).2 (.inr ⟨pre, post, h', fun h => h2 (List.mem_cons_of_mem _ h), fun x hx => h3 x (List.mem_cons_of_mem _ hx), rfl⟩), rfl⟩

/-- C100: the two commands. `setup` writes the .clop file beside the control file. Without options, the arguments are as they were given. -/
theorem C100_program {σ : Type} (V : ClopWorld σ) (fuel : Nat) (control : Str) (hc : ¬ IsOption control ∧ control ≠ "--".toList) :
    (∀ arguments, "--".toList ∉ arguments → (∀ a ∈ arguments, ¬ IsOption a) →
      clopProgram V fuel (control :: "run-game".toList :: arguments) = (clopMain V fuel control arguments).map (fun x => .ran x.1 x.2.1 x.2.2)) ∧
    clopProgram V fuel [control, "setup".toList] = some (.setUp (clopSetupMain V control).1 (clopSetupMain V control).2) ∧
    ∀ status path text, clopSetupMain V control = (status, some (path, text)) →
      ∃ r, newClop V.control V.fns control = .ok r ∧ path = Gtp.pathJoin r.paths.base (r.paths.code ++ ".clop".toList) ∧ r.tuner.setup V.fns V.text V.script r.paths.control = some text ∧
        (status = 0 ↔ (r.recordGames = true → V.directory r.paths.sgfDir = true)) := by
  have hrun : ¬ IsOption "run-game".toList ∧ "run-game".toList ≠ "--".toList := ⟨by rintro ⟨_, c, s, h⟩; exact absurd (List.cons.inj h).1 (by decide), by decide⟩
  have hset : ¬ IsOption "setup".toList ∧ "setup".toList ≠ "--".toList := ⟨by rintro ⟨_, c, s, h⟩; exact absurd (List.cons.inj h).1 (by decide), by decide⟩
  refine ⟨?_, ?_, ?_⟩
  · intro arguments h1 h2
    have : positionals (control :: "run-game".toList :: arguments) = some (control :: "run-game".toList :: arguments) := by
      refine (C100_options _ _).2 (.inl ⟨?_, ?_, rfl⟩)
      · intro h
        rcases List.mem_cons.1 h with h | h
        · exact hc.2 h.symm
        · rcases List.mem_cons.1 h with h | h
          · exact hrun.2 h.symm
          · exact h1 h
      · intro a h
        rcases List.mem_cons.1 h with rfl | h
        · exact hc.1
        · rcases List.mem_cons.1 h with rfl | h
          · exact hrun.1
          · exact h2 a h
    unfold clopProgram
    rw [this]
    simp only [if_true]
  · have : positionals [control, "setup".toList] = some [control, "setup".toList] := by
      refine (C100_options _ _).2 (.inl ⟨?_, ?_, rfl⟩)
      · intro h
        rcases List.mem_cons.1 h with h | h
        · exact hc.2 h.symm
        · exact hset.2 (List.mem_singleton.1 h).symm
      · intro a h
        rcases List.mem_cons.1 h with rfl | h
        · exact hc.1
        · rw [List.mem_singleton.1 h]; exact hset.1
    unfold clopProgram
    rw [this]
    simp only
    rw [if_neg (by decide)]
    simp only [if_true]
  · intro status path text h
    unfold clopSetupMain at h
    split at h
    · cases h
    split at h
    · cases h
    · cases h
    · rename_i r hr
      injection h with h1 h2
      refine ⟨r, hr, ?_⟩
      unfold ClopRingmaster.doSetup at h1 h2
      cases ht : r.tuner.setup V.fns V.text V.script r.paths.control with
      | none => rw [ht] at h2; cases h2
      | some text' =>
        rw [ht] at h1 h2
        simp only at h1 h2
        cases hw : V.writable r.clopPath with
        | false => rw [hw] at h2; cases h2
        | true =>
          rw [hw] at h1 h2
          simp only [Bool.not_true, Bool.false_eq_true, if_false] at h1 h2
          have h2 := Option.some.inj h2
          injection h2 with h2 h3
          refine ⟨h2.symm, by rw [h3], ?_⟩
          rw [← h1]
          cases r.recordGames <;> cases V.directory r.paths.sgfDir <;> simp

/-- C100: a value which starts with a minus sign is taken for an option (unless there's an argument "--" before it): the program ends without playing a game. So parameters can't have
negative values. -/
theorem C100_negative {σ : Type} (V : ClopWorld σ) (fuel : Nat) (control processor seed : Str) (l : List (Str × Str)) (name value : Str) (hv : (name, '-' :: value) ∈ l) (hne : value ≠ [])
    (hd : "--".toList ∉ control :: "run-game".toList :: processor :: seed :: ArgumentPairs l) :
    clopProgram V fuel (control :: "run-game".toList :: processor :: seed :: ArgumentPairs l) = some .usage := by
  have hm : '-' :: value ∈ control :: "run-game".toList :: processor :: seed :: ArgumentPairs l := by
    refine List.mem_cons_of_mem _ (List.mem_cons_of_mem _ (List.mem_cons_of_mem _ (List.mem_cons_of_mem _ ?_)))
    unfold ArgumentPairs
    exact List.mem_flatMap.2 ⟨_, hv, by simp⟩
  have ho : IsOption ('-' :: value) := by
    refine ⟨fun h => hd (h ▸ hm), ?_⟩
    cases value with
    | nil => exact absurd rfl hne
    | cons c s => exact ⟨c, s, rfl⟩
  have : positionals (control :: "run-game".toList :: processor :: seed :: ArgumentPairs l) = none := by
    cases hp : positionals (control :: "run-game".toList :: processor :: seed :: ArgumentPairs l) with
    | none => rfl
    | some args =>
      rcases (C100_options _ _).1 hp with ⟨_, h, _⟩ | ⟨pre, post, h, _⟩
      · exact absurd ho (h _ hm)
      · exfalso
        apply hd
        rw [h]
        simp
  unfold clopProgram
  rw [this]

/-! ### An example -/

/-- `obj 0` is the players; `obj 1` is the list of parameters, and `obj 2`, `obj 3` are lists which are refused; `obj 22` is make_candidate. -/
def clopExampleWorld : World where
  listOf
    | .obj 1 => some [
        .quiet "Parameter".toList [.str "alpha".toList] [("type".toList, .str "LinearParameter".toList), ("min".toList, .float (.fin (1 / 2))), ("max".toList, .int 3)],
        .quiet "Parameter".toList [] [("code".toList, .str "beta".toList), ("type".toList, .str "IntegerParameter".toList), ("min".toList, .int (-1)), ("max".toList, .float (.fin 5))]]
    | .obj 2 => some [.quiet "Parameter".toList [.str "alpha".toList] [("type".toList, .str "IntegerParameter".toList), ("min".toList, .float (.fin (1 / 2))), ("max".toList, .int 3)]]
    | .obj 3 => some [.quiet "Parameter".toList [.str "alpha".toList] [("type".toList, .str "Parameter".toList), ("min".toList, .int 1), ("max".toList, .int 3)]]
    | _ => none
  mapOf
    | .obj 0 => some [(.str "p2".toList, .quiet "Player".toList [.str "resign".toList] []), (.str "p1".toList, .quiet "Player".toList [.str "pass".toList] [])]
    | _ => none
  resolve _ := .error "failed".toList
  floatOf n := some (.fin n)
  shlex s := .ok (Gtp.splitWs s)
  showVal _ := .ok "?".toList
  expandUser s := some s

/-- make_candidate gives a player which passes if the second parameter is positive, and resigns if not; it can't be 3. -/
def clopFns : Fns := { tunerFns with
  make := fun f vs => match f, vs with
    | .obj 22, [.float _, .int n] => if n = 3 then .error "three".toList else .ok (.quiet "Player".toList [.str (if 0 < n then "pass".toList else "resign".toList)] [])
    | _, _ => .error "wrong arguments".toList }

/-- A control file's settings. -/
def clopConfig (opponent : String) (parameters : Nat) (stop : Bool) : List (Str × Val) :=
  [("competition_type".toList, .str "clop_tuner".toList), ("players".toList, .obj 0), ("board_size".toList, .int 9), ("komi".toList, .float (.fin (15 / 2))),
   ("candidate_colour".toList, .str "Black".toList), ("opponent".toList, .str opponent.toList), ("parallel".toList, .int 2), ("stop_on_error".toList, .bool stop),
   ("record_games".toList, .bool false), ("stderr_to_log".toList, .bool false), ("parameters".toList, .obj parameters), ("make_candidate".toList, .obj 22)]

/-- Engines which always give the same answer. -/
def clopEngines : Gtp.JobWorld Gtp.Table := { Gtp.exampleWorld "" "" with
  spawn := fun p => match p.args with
    | [a] => .ok (Gtp.simpleEngine (String.ofList a), none)
    | _ => .error "No such file".toList }

def clopExample (opponent : String) (parameters : Nat) (stop : Bool) : ClopWorld Gtp.Table where
  control := { world := clopExampleWorld, read := fun _ => .ok "competition_type = 'clop_tuner'\n".toList, exec := fun _ _ => .ok (clopConfig opponent parameters stop), tuner := fun _ _ _ _ => .ok (), trace := Err.msg }
  fns := clopFns
  text := { fixed := (fun x => match x with | .fin q => strInt q.num ++ "/".toList ++ strInt q.den | _ => []), readFloat := fun s => if s = "2.5".toList then some (.fin (5 / 2)) else none }
  exist := fun p => decide (p = "dir/x.ctl".toList)
  openLog := fun _ => true
  writable := fun _ => true
  directory := fun _ => true
  script := "/bin/gomill-clop".toList
  job := clopEngines

/-- Running a game. -/
def clopRun (opponent : String) (stop : Bool) (beta : String) : Option ClopEnd :=
  clopProgram (clopExample opponent 1 stop) 50 (["dir/x.ctl", "run-game", "par0", "17", "alpha", "2.5", "beta", beta].map String.toList)

/-- What's printed. -/
def ClopEnd.stdout : ClopEnd → Str
  | .ran out _ _ => out
  | _ => []

/-- Refused control files. -/
def clopRefusal (parameters : Nat) : Str :=
  match newClop (clopExample "p1" parameters true).control clopFns "dir/x.ctl".toList with
  | .error (.ringmaster m) => m
  | _ => []

/-- C100: a candidate which passes, when the opponent resigns, and when it passes too (and nobody says who has won); one which resigns; and values which are refused. -/
theorem C100_witness :
    clopRun "p2" true "1" = some (.ran "W\n".toList 0 ["starting game 17: #17 (b) vs p2 (w)".toList, "response from game 17".toList,
      "failure response from 'quit' to player #17:\nnot now\nfailure response from 'quit' to player p2:\nnot now".toList]) ∧
    (clopRun "p1" true "0").map (fun e => e.stdout) = some "L\n".toList ∧
    (clopRun "p1" true "1").map (fun e => e.stdout) = some "D\n".toList ∧
    (clopRun "p1" false "1").map (fun e => e.stdout) = some "Error\n".toList ∧
    clopRun "p2" true "3" = some (.ran "Error\n".toList 1 []) ∧
    clopRun "p2" true "1.5" = some (.ran "Error\n".toList 1 []) ∧
    clopRun "p2" true "-1" = some .usage ∧
    clopProgram (clopExample "p2" 1 true) 50 (["dir/x.ctl", "run-game", "par0", "17", "beta", "1", "alpha", "2.5"].map String.toList) = some (.ran "Error\n".toList 1 []) ∧
    clopProgram (clopExample "p2" 1 true) 50 (["dir/x.ctl", "run-game", "par0", "17", "alpha", "2.5", "beta"].map String.toList) = some (.ran "Error\n".toList 1 []) ∧
    clopProgram (clopExample "p2" 1 true) 50 (["dir/y.ctl", "run-game", "par0", "17", "alpha", "2.5", "beta", "1"].map String.toList) = some (.ran "Error\n".toList 1 []) ∧
    clopRefusal 2 = "error in control file:\nparameter alpha: 'min': should be an integer".toList ∧
    clopRefusal 3 = "error in control file:\nparameter alpha: 'type': unknown value".toList ∧
    clopProgram (clopExample "p2" 1 false) 50 (["dir/x.ctl", "setup"].map String.toList) = some (.setUp 0 (some ("dir/x.clop".toList,
      "Name x\n\nScript /bin/gomill-clop x.ctl run-game\n\nLinearParameter alpha 1/2 3/1\nIntegerParameter beta -1 5\n\nProcessor par0\nProcessor par1\n\nReplications 1\n\nDrawElo 0\n\nH 3\n\nCorrelations all\n\nStopOnError false\n\n".toList))) ∧
    (pathsOf "dir/x.clop".toList).toOption.map (fun P => (P.control, inside P.base (P.code ++ ".clop".toList))) = some ("dir/x.clop".toList, "dir/x.clop".toList) := by
  refine ⟨by decide +kernel, by decide +kernel, by decide +kernel, by decide +kernel, by decide +kernel, by decide +kernel, by decide +kernel, by decide +kernel,
    by decide +kernel, by decide +kernel, by decide +kernel, by decide +kernel, by decide +kernel, by decide +kernel⟩

end Gomill.Conf
