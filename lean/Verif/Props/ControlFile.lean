import Verif.Lemmas.ControlFile
/-
C77: the ringmaster and its control file.
-/
namespace Gomill.Conf
open Py Spec

/-! ### Pathnames -/

/-- The pathnames of the things a competition can make. -/
def Spec.outputs (P : Paths) : List Str := [P.log, P.status, P.command, P.history, P.report, P.sgfDir, P.voidDir, P.gtplogDir]

theorem forbidden_eq : forbiddenExtensions = outputExtensions.map String.toList := rfl

theorem pathsOf_iff {control : Str} {P : Paths} : pathsOf control = .ok P ↔
    ∃ name ext, Located control P.base name ∧ Ext name P.code ext ∧ ext ∉ outputExtensions.map String.toList ∧ P.control = control ∧
      outputs P = outputExtensions.map (fun x => inside P.base (P.code ++ x.toList)) := by
  obtain ⟨dir, name, hl⟩ := located_total control
  obtain ⟨code, ext, he⟩ := ext_total name
  have hnc : '/' ∉ code := fun h => located_name hl (by rw [ext_append he]; exact List.mem_append_left _ h)
  unfold pathsOf
  rw [located_split.2 hl]
  simp only
  rw [splitExt_iff.2 he]
  simp only
  rw [pathJoin_inside hnc, forbidden_eq]
  simp only [inside_append]
  constructor
  · intro h
    split at h
    next => cases h
    next hx => cases h; exact ⟨name, ext, hl, he, hx, rfl, rfl⟩
  · rintro ⟨name', ext', hl', he', hx, hc, ho⟩
    obtain ⟨hb, rfl⟩ := located_unique hl hl'
    obtain ⟨hcode, rfl⟩ := ext_unique he he'
    rw [if_neg hx]
    subst hb hcode
    cases P
    simp only [outputs, outputExtensions, List.map_cons, List.map_nil, List.cons.injEq, and_true] at ho
    obtain ⟨h1, h2, h3, h4, h5, h6, h7, h8⟩ := ho
    simp only at hc
    subst hc h1 h2 h3 h4 h5 h6 h7 h8
    rfl

theorem output_noslash {control : Str} {P : Paths} (h : pathsOf control = .ok P) {x : String} (hx : x ∈ outputExtensions) : '/' ∉ P.code ++ x.toList := by
  obtain ⟨name, ext, hl, he, -⟩ := pathsOf_iff.1 h
  intro hm
  rcases List.mem_append.1 hm with hm | hm
  · exact located_name hl (by rw [ext_append he]; exact List.mem_append_left _ hm)
  · have : ∀ x ∈ outputExtensions, '/' ∉ x.toList := by decide +kernel
    exact this x hx hm

theorem output_located {control : Str} {P : Paths} (h : pathsOf control = .ok P) {x : String} (hx : x ∈ outputExtensions) :
    Located (inside P.base (P.code ++ x.toList)) P.base (P.code ++ x.toList) := by
  obtain ⟨name, ext, hl, -⟩ := pathsOf_iff.1 h
  exact located_inside hl (output_noslash h hx)

/-- C77: the competition's code is the control file's name without its extension, and everything it makes is beside the control file, with that code as its name and one
of the reserved extensions. Control files can't have one of those. -/
theorem C77_paths (control : Str) :
    (∀ P, pathsOf control = .ok P →
      ∃ name ext, Located control P.base name ∧ Ext name P.code ext ∧ ext ∉ outputExtensions.map String.toList ∧ P.control = control ∧
        List.Forall₂ (fun path (x : String) => path = inside P.base (P.code ++ x.toList) ∧ Located path P.base (P.code ++ x.toList)) (outputs P) outputExtensions) ∧
    (∀ e, pathsOf control = .error e ↔
      ∃ dir name code ext, Located control dir name ∧ Ext name code ext ∧ ext ∈ outputExtensions.map String.toList ∧
        e = .ringmaster ("forbidden control file extension: ".toList ++ ext)) := by
  refine ⟨fun P h => ?_, fun e => ?_⟩
  · obtain ⟨name, ext, hl, he, hx, hc, ho⟩ := pathsOf_iff.1 h
    refine ⟨name, ext, hl, he, hx, hc, ?_⟩
    rw [ho, List.forall₂_map_left_iff, List.forall₂_same]
    intro x hx
    exact ⟨rfl, output_located h hx⟩
  · obtain ⟨dir, name, hl⟩ := located_total control
    obtain ⟨code, ext, he⟩ := ext_total name
    unfold pathsOf
    rw [located_split.2 hl]
    simp only
    rw [splitExt_iff.2 he]
    simp only
    rw [forbidden_eq]
    constructor
    · intro h
      split at h
      next hx => cases h; exact ⟨dir, name, code, ext, hl, he, hx, rfl⟩
      next => cases h
    · rintro ⟨dir', name', code', ext', hl', he', hx, rfl⟩
      obtain ⟨rfl, rfl⟩ := located_unique hl hl'
      obtain ⟨rfl, rfl⟩ := ext_unique he he'
      rw [if_pos hx]

theorem located_inj {p p' d n : Str} (h : Located p d n) (e : p = p') {d' n' : Str} (h' : Located p' d' n') : d = d' ∧ n = n' := by
  subst e; exact located_unique h h'

/-- C77: unless the code is made of dots, no control file is one of these: such a pathname is refused. In particular no competition can overwrite its own control file, or
another competition's. -/
theorem C77_reserved (control : Str) (P : Paths) (h : pathsOf control = .ok P) (hcode : ∃ c ∈ P.code, c ≠ '.') (out : Str) (ho : out ∈ outputs P) :
    (∃ ext ∈ outputExtensions, pathsOf out = .error (.ringmaster ("forbidden control file extension: ".toList ++ ext.toList))) ∧ out ≠ control := by
  have hr : ∃ ext ∈ outputExtensions, pathsOf out = .error (.ringmaster ("forbidden control file extension: ".toList ++ ext.toList)) := by
    obtain ⟨name, ext, hl, he, hx, hc, hos⟩ := pathsOf_iff.1 h
    rw [hos, List.mem_map] at ho
    obtain ⟨x, hx, rfl⟩ := ho
    refine ⟨x, hx, ((C77_paths _).2 _).2 ⟨P.base, P.code ++ x.toList, P.code, x.toList, output_located h hx, ?_, List.mem_map_of_mem hx, rfl⟩⟩
    have : ∀ x ∈ outputExtensions, ∃ e, x.toList = '.' :: e ∧ '.' ∉ e := by
      intro x hx
      have h1 : ∀ x ∈ outputExtensions, x.toList = '.' :: x.toList.tail ∧ '.' ∉ x.toList.tail := by decide +kernel
      exact ⟨_, h1 x hx⟩
    obtain ⟨e, hxe, hne⟩ := this x hx
    rw [hxe]
    exact .some hne hcode
  refine ⟨hr, ?_⟩
  rintro rfl
  obtain ⟨ext, _, hr⟩ := hr
  rw [h] at hr
  cases hr

/-- C77: no two of a competition's files have the same pathname; and if two competitions have an output with the same pathname, then they have the same directory and
code. -/
theorem C77_distinct (control control' : Str) (P P' : Paths) (h : pathsOf control = .ok P) (h' : pathsOf control' = .ok P') :
    (outputs P).Nodup ∧ ((∃ out, out ∈ outputs P ∧ out ∈ outputs P') → P.base = P'.base ∧ P.code = P'.code) := by
  have hsuf : ∀ {c c' : Str} {x y : String}, x ∈ outputExtensions → y ∈ outputExtensions → c ++ x.toList = c' ++ y.toList → c = c' ∧ x = y := by
    intro c c' x y hx hy e
    have h1 : ∀ x ∈ outputExtensions, x.toList = '.' :: x.toList.tail ∧ '.' ∉ x.toList.tail := by decide +kernel
    have hx1 := h1 x hx
    have hy1 := h1 y hy
    rw [hx1.1, hy1.1] at e
    have key : ∀ {c t : Str}, '.' ∉ t → (c ++ '.' :: t).reverse.takeWhile (· ≠ '.') = t.reverse ∧ (c ++ '.' :: t).reverse.dropWhile (· ≠ '.') = '.' :: c.reverse := by
      intro c t ht
      have e1 : (c ++ '.' :: t).reverse = t.reverse ++ '.' :: c.reverse := by simp
      rw [e1]
      exact takeWhile_stop (p := fun c : Char => decide (c ≠ '.')) (fun x hx => decide_eq_true (fun h => ht (h ▸ List.mem_reverse.1 hx))) (fun x hx => by cases hx; rfl)
    have k1 := key (c := c) hx1.2
    have k2 := key (c := c') hy1.2
    rw [e] at k1
    have t1 := k1.1.symm.trans k2.1
    have t2 := k1.2.symm.trans k2.2
    refine ⟨List.reverse_injective (List.cons.inj t2).2, ?_⟩
    have := List.reverse_injective t1
    apply String.toList_inj.1
    rw [hx1.1, hy1.1, this]
  obtain ⟨_, _, _, _, _, _, ho⟩ := pathsOf_iff.1 h
  obtain ⟨_, _, _, _, _, _, ho'⟩ := pathsOf_iff.1 h'
  constructor
  · rw [ho]
    refine List.Nodup.map_on ?_ (by decide +kernel)
    intro x hx y hy e
    have := (located_inj (output_located h hx) e (output_located h hy)).2
    exact (hsuf hx hy this).2
  · rintro ⟨out, h1, h2⟩
    rw [ho, List.mem_map] at h1
    rw [ho', List.mem_map] at h2
    obtain ⟨x, hx, rfl⟩ := h1
    obtain ⟨y, hy, e⟩ := h2
    obtain ⟨hb, hn⟩ := located_inj (output_located h hx) e.symm (output_located h' hy)
    exact ⟨hb, (hsuf hx hy hn).1⟩

/-! ### The competition type -/

/-- C77: the competition type is found exactly when the file's first line (other than blank lines and comments) is a simple assignment of a string literal. -/
theorem C77_type (source type : Str) : parseCompetitionType source = some type ↔ TypeOf source type := parse_iff

theorem typeOf_unique {source t t' : Str} (h : TypeOf source t) (h' : TypeOf source t') : t = t' :=
  Option.some.inj ((parse_iff.2 h).symm.trans (parse_iff.2 h'))

theorem parse_none {source : Str} : parseCompetitionType source = none ↔ ∀ t, ¬ TypeOf source t := by
  constructor
  · intro h t ht
    rw [parse_iff.2 ht] at h
    cases h
  · intro h
    cases hp : parseCompetitionType source with
    | none => rfl
    | some t => exact absurd (parse_iff.1 hp) (h t)

/-! ### The ringmaster's settings -/

theorem flagSettings_eq : ringmasterSettings = [
  { name := "record_games".toList, interpreter := sv interpretBool .bool, default := (some true).map SVal.bool },
  { name := "stderr_to_log".toList, interpreter := sv interpretBool .bool, default := (some true).map SVal.bool },
  { name := "skip_player_checks".toList, interpreter := sv interpretBool .bool, default := (some false).map SVal.bool } ] := rfl

theorem flagSettings_nodup : (ringmasterSettings.map Setting.name).Nodup := by
  show (["record_games".toList, "stderr_to_log".toList, "skip_player_checks".toList] : List Str).Nodup
  decide +kernel

theorem flagSettings_noKey : ∀ s ∈ ringmasterSettings, NoKeyError s := by
  intro s hs
  simp only [ringmasterSettings, List.mem_cons, List.not_mem_nil, or_false] at hs
  rcases hs with rfl | rfl | rfl <;> exact sv_noKey interprets_bool

variable {W : World} {config : List (Str × Val)}

theorem flag_gets {name : String} {d b : Bool} :
    Gets W config true { name := name.toList, interpreter := sv interpretBool .bool, default := (some d).map SVal.bool } (.bool b) ↔ RingmasterFlag W config name d b :=
  setting_iff interprets_bool.1 (fun x y h => by injection h)

theorem flag_form {name : String} {d : Bool} {x : SVal}
    (h : Gets W config true { name := name.toList, interpreter := sv interpretBool .bool, default := (some d).map SVal.bool } x) : ∃ b, x = .bool b := by
  rcases (gets_sv interprets_bool).1 h with ⟨v, y, _, _, rfl⟩ | ⟨_, h⟩
  · exact ⟨y, rfl⟩
  · cases h; exact ⟨d, rfl⟩

theorem flags_ok {r e s : Bool} : ringmasterFlags W config = .ok (r, e, s) ↔
    RingmasterFlag W config "record_games" true r ∧ RingmasterFlag W config "stderr_to_log" true e ∧ RingmasterFlag W config "skip_player_checks" false s := by
  unfold ringmasterFlags
  simp only [bind_ok, toControl_ok, boolOf_ok]
  have hspec := fun d => (C73_load_settings W config true false ringmasterSettings flagSettings_nodup flagSettings_noKey).1 d
  rw [flagSettings_eq] at hspec
  constructor
  · rintro ⟨d, hd, r', hr, e', he, s', hs, h⟩
    cases h
    have h := (hspec d hd).1
    simp only [List.forall_mem_cons, Bool.false_eq_true, false_and, and_false, or_false] at h
    obtain ⟨⟨x1, g1, l1⟩, ⟨x2, g2, l2⟩, ⟨x3, g3, l3⟩, _⟩ := h
    rw [hr] at l1; rw [he] at l2; rw [hs] at l3
    cases l1; cases l2; cases l3
    exact ⟨flag_gets.1 g1, flag_gets.1 g2, flag_gets.1 g3⟩
  · rintro ⟨h1, h2, h3⟩
    obtain ⟨d, hd⟩ := loadSettings_ok (W := W) (config := config) (ad := true) (am := false) flagSettings_nodup flagSettings_noKey (by
      intro s hs
      left
      rw [flagSettings_eq] at hs
      simp only [List.mem_cons, List.not_mem_nil, or_false] at hs
      rcases hs with rfl | rfl | rfl
      exacts [⟨_, flag_gets.2 h1⟩, ⟨_, flag_gets.2 h2⟩, ⟨_, flag_gets.2 h3⟩])
    have h := (hspec d hd).1
    simp only [List.forall_mem_cons, Bool.false_eq_true, false_and, and_false, or_false] at h
    obtain ⟨⟨x1, g1, l1⟩, ⟨x2, g2, l2⟩, ⟨x3, g3, l3⟩, _⟩ := h
    rw [gets_unique g1 (flag_gets.2 h1)] at l1
    rw [gets_unique g2 (flag_gets.2 h2)] at l2
    rw [gets_unique g3 (flag_gets.2 h3)] at l3
    exact ⟨d, hd, r, l1, e, l2, s, l3, rfl⟩

/-- A setting whose value is wrong. -/
theorem flag_invalid {name : String} {d : Bool} {m : Str}
    (h : Invalid W config { name := name.toList, interpreter := sv interpretBool .bool, default := (some d).map SVal.bool } m) :
    (∃ k, config.lookup name.toList = some (.proxy k) ∧ W.resolve k = .error m) ∨
      (m = "invalid True/False value".toList ∧ ∃ v, Given W (config.lookup name.toList) v ∧ ∀ b, v ≠ .bool b) := by
  cases h with
  | proxy h1 h2 => exact .inl ⟨_, h1, h2⟩
  | @value v h1 h2 =>
    right
    obtain ⟨u, hu, hs⟩ := h1
    have : interpretBool v = .error ⟨.value, m⟩ := by
      simp only [sv] at h2
      cases hb : interpretBool v with
      | ok b => rw [hb] at h2; cases h2
      | error e => rw [hb] at h2; cases h2; rfl
    have hv : ∀ b, v ≠ .bool b := by
      rintro b rfl
      cases this
    refine ⟨?_, v, ⟨u, hu, hs⟩, hv⟩
    cases v <;> first | exact absurd rfl (hv _) | (injection this with this; injection this with _ this; exact this.symm)

theorem flag_fails {name : String} {d : Bool} {e : Err}
    (h : Fails W config { name := name.toList, interpreter := sv interpretBool .bool, default := (some d).map SVal.bool } e) : False := by
  obtain ⟨v, _, h2, h3⟩ := h
  simp only [sv] at h2
  cases hb : interpretBool v with
  | ok b => rw [hb] at h2; cases h2
  | error e' => rw [hb] at h2; cases h2; exact h3 (interprets_bool.2 _ _ hb)

theorem flag_bad {name : String} {d : Bool} {why : Str}
    (h : (∃ k, config.lookup name.toList = some (.proxy k) ∧ W.resolve k = .error why) ∨
       (why = "invalid True/False value".toList ∧ ∃ v, Given W (config.lookup name.toList) v ∧ ∀ b, v ≠ .bool b)) (b : Bool) : ¬ RingmasterFlag W config name d b := by
  intro hf
  have hg := flag_gets.2 hf
  rcases h with ⟨k, h1, h2⟩ | ⟨_, v, ⟨u, hu, hs⟩, hv⟩
  · exact gets_not_invalid hg why (.proxy h1 h2)
  · have : interpretBool v = .error (.value "invalid True/False value") := by
      cases v <;> first | exact absurd rfl (hv _) | rfl
    refine gets_not_invalid hg "invalid True/False value".toList (.value (v := v) ⟨u, hu, hs⟩ ?_)
    show sv interpretBool .bool v = _
    unfold sv
    rw [this]
    rfl

theorem flags_error {e : Err} (h : ringmasterFlags W config = .error e) : ∃ m, FlagError W config m ∧ e = ⟨.controlFile, m⟩ := by
  have hspec := C73_load_settings W config true false ringmasterSettings flagSettings_nodup flagSettings_noKey
  rw [flagSettings_eq] at hspec
  unfold ringmasterFlags at h
  cases hl : loadSettings W config true false ringmasterSettings [] with
  | ok d =>
    exfalso
    rw [flagSettings_eq] at hl
    have h1 := (hspec.1 d hl).1
    simp only [List.forall_mem_cons, Bool.false_eq_true, false_and, and_false, or_false] at h1
    obtain ⟨⟨x1, g1, l1⟩, ⟨x2, g2, l2⟩, ⟨x3, g3, l3⟩, _⟩ := h1
    obtain ⟨b1, rfl⟩ := flag_form g1
    obtain ⟨b2, rfl⟩ := flag_form g2
    obtain ⟨b3, rfl⟩ := flag_form g3
    have := flags_ok.2 ⟨flag_gets.1 g1, flag_gets.1 g2, flag_gets.1 g3⟩
    unfold ringmasterFlags at this
    rw [this] at h
    cases h
  | error e' =>
    rw [hl] at h
    have he : e = (if e'.kind = .value then ⟨.controlFile, e'.msg⟩ else e') := by cases h; rfl
    rw [flagSettings_eq] at hl
    obtain ⟨pre, s, post, hs, hp, h3⟩ := hspec.2 e' hl
    have hgood : ∀ {name : String} {d : Bool}, ({ name := name.toList, interpreter := sv interpretBool .bool, default := (some d).map SVal.bool } : Setting) ∈ pre →
        ∃ b, RingmasterFlag W config name d b := by
      intro name d hm
      rcases hp _ hm with ⟨x, hx⟩ | ⟨_, h⟩
      · obtain ⟨b, rfl⟩ := flag_form hx
        exact ⟨b, flag_gets.1 hx⟩
      · cases h
    have fin : ∀ {name : String} {d : Bool}, s = { name := name.toList, interpreter := sv interpretBool .bool, default := (some d).map SVal.bool } →
        ∃ m why, e = ⟨.controlFile, m⟩ ∧ m = "'".toList ++ name.toList ++ "': ".toList ++ why ∧
          ((∃ k, config.lookup name.toList = some (.proxy k) ∧ W.resolve k = .error why) ∨
            (why = "invalid True/False value".toList ∧ ∃ v, Given W (config.lookup name.toList) v ∧ ∀ b, v ≠ .bool b)) := by
      rintro name d rfl
      rcases h3 with ⟨m, hm, rfl⟩ | ⟨⟨_, hm⟩, _⟩ | hf
      · exact ⟨_, m, he, rfl, flag_invalid hm⟩
      · exact absurd ⟨rfl, rfl⟩ hm
      · exact (flag_fails hf).elim
    rcases pre with _ | ⟨p1, _ | ⟨p2, _ | ⟨p3, pre⟩⟩⟩
    · cases hs
      obtain ⟨m, why, h1, h2, h3⟩ := fin rfl
      exact ⟨m, .mk [] "record_games" true [("stderr_to_log", true), ("skip_player_checks", false)] why rfl (by simp) h3 h2, h1⟩
    · cases hs
      obtain ⟨m, why, h1, h2, h3⟩ := fin rfl
      refine ⟨m, .mk [("record_games", true)] "stderr_to_log" true [("skip_player_checks", false)] why rfl ?_ h3 h2, h1⟩
      intro s hs
      cases List.mem_singleton.1 hs
      exact hgood (by simp)
    · cases hs
      obtain ⟨m, why, h1, h2, h3⟩ := fin rfl
      refine ⟨m, .mk [("record_games", true), ("stderr_to_log", true)] "skip_player_checks" false [] why rfl ?_ h3 h2, h1⟩
      intro s hs
      simp only [List.mem_cons, List.not_mem_nil, or_false] at hs
      rcases hs with rfl | rfl
      · exact hgood (by simp)
      · exact hgood (by simp)
    · simp only [List.cons_append, List.cons.injEq] at hs
      have := congrArg List.length hs.2.2.2
      simp at this

theorem flags_noerror {r e s : Bool} (h : ringmasterFlags W config = .ok (r, e, s)) (m : Str) : ¬ FlagError W config m := by
  rintro ⟨pre, name, d, post, why, hs, _, hbad, _⟩
  obtain ⟨h1, h2, h3⟩ := flags_ok.1 h
  have hm : (name, d) ∈ [("record_games", true), ("stderr_to_log", true), ("skip_player_checks", false)] := by rw [← hs]; simp
  simp only [List.mem_cons, List.not_mem_nil, or_false] at hm
  rcases hm with hm | hm | hm <;> injection hm with hn hd <;> subst hn hd
  exacts [flag_bad hbad _ h1, flag_bad hbad _ h2, flag_bad hbad _ h3]

/-! ### Making a Ringmaster -/

variable {τ : Type} {C : ControlWorld τ}

theorem sameType_iff {type : Str} : sameType config type = true ↔ SaysType config type := by
  unfold sameType SaysType
  split
  next s h =>
    rw [h, decide_eq_true_iff]
    refine ⟨fun e => .inl (by rw [e]), fun e => ?_⟩
    rcases e with e | e
    · cases e; rfl
    · cases e
  next s h =>
    rw [h, decide_eq_true_iff]
    refine ⟨fun e => .inr (by rw [e]), fun e => ?_⟩
    rcases e with e | e
    · cases e
    · cases e; rfl
  next h1 h2 =>
    refine ⟨(fun h => nomatch h), fun h => ?_⟩
    rcases h with h | h
    · exact absurd h (h1 _)
    · exact absurd h (h2 _)

theorem competitionOf_known {type dir code : Str} : (competitionOf C type dir code).isSome = true ↔ type ∈ competitionTypes.map String.toList := by
  unfold competitionOf
  simp only [competitionTypes, List.map_cons, List.map_nil, List.mem_cons, List.not_mem_nil, or_false]
  by_cases h1 : type = "playoff".toList
  · simp only [if_pos h1, Option.isSome_some, true_iff]; exact .inl h1
  rw [if_neg h1]
  by_cases h2 : type = "allplayall".toList
  · simp only [if_pos h2, Option.isSome_some, true_iff]; exact .inr (.inl h2)
  rw [if_neg h2]
  by_cases h3 : type = "ce_tuner".toList ∨ type = "mc_tuner".toList
  · simp only [if_pos h3, Option.isSome_some, true_iff]; exact .inr (.inr h3)
  rw [if_neg h3]
  simp only [Option.isSome_none, Bool.false_eq_true, false_iff]
  rintro (h | h | h)
  exacts [h1 h, h2 h, h3 h]

theorem map_ok {α β : Type} {f : α → β} {x : Except Err α} {y : β} : f <$> x = .ok y ↔ ∃ a, x = .ok a ∧ y = f a := by
  cases x with
  | error e => exact ⟨(fun h => nomatch h), fun ⟨_, h, _⟩ => nomatch h⟩
  | ok a => exact ⟨fun h => by cases h; exact ⟨a, rfl, rfl⟩, fun ⟨b, h, h'⟩ => by cases h; rw [h']; rfl⟩

theorem map_error {α β : Type} {f : α → β} {x : Except Err α} {e : Err} : f <$> x = .error e ↔ x = .error e := by
  cases x with
  | error e => exact ⟨fun h => by cases h; rfl, fun h => by cases h; rfl⟩
  | ok a => exact ⟨(fun h => nomatch h), (fun h => nomatch h)⟩

theorem competitionOf_ok {type dir code : Str} {init : List (Str × Val) → Except Err (Competition τ)} (h : competitionOf C type dir code = some init)
    {c : Competition τ} : init config = .ok c ↔ Describes C dir code config type c := by
  unfold competitionOf at h
  have inv : ∀ {t c}, Describes C dir code config t c →
      (t = "playoff".toList ∧ ∃ p, initPlayoff C.world (some dir) code config = .ok p ∧ c = .playoff p) ∨
      (t = "allplayall".toList ∧ ∃ p, initAllplayall C.world (some dir) code config = .ok p ∧ c = .allplayall p) ∨
      ((t = "ce_tuner".toList ∨ t = "mc_tuner".toList) ∧ ∃ p, C.tuner t (some dir) code config = .ok p ∧ c = .tuner p) := by
    intro t c h
    cases h with
    | playoff h => exact .inl ⟨rfl, _, h, rfl⟩
    | allplayall h => exact .inr (.inl ⟨rfl, _, h, rfl⟩)
    | cem h => exact .inr (.inr ⟨.inl rfl, _, h, rfl⟩)
    | mcts h => exact .inr (.inr ⟨.inr rfl, _, h, rfl⟩)
  have n1 : "allplayall".toList ≠ "playoff".toList := by decide
  have n2 : "ce_tuner".toList ≠ "playoff".toList := by decide
  have n3 : "mc_tuner".toList ≠ "playoff".toList := by decide
  have n4 : "ce_tuner".toList ≠ "allplayall".toList := by decide
  have n5 : "mc_tuner".toList ≠ "allplayall".toList := by decide
  by_cases h1 : type = "playoff".toList
  · rw [if_pos h1] at h
    have h := Option.some.inj h
    subst h
    simp only [map_ok]
    constructor
    · rintro ⟨p, hp, rfl⟩; rw [h1]; exact .playoff hp
    · intro hd
      rcases inv hd with ⟨_, h⟩ | ⟨h, _⟩ | ⟨h | h, _⟩
      · exact h
      · exact absurd (h.symm.trans h1) n1
      · exact absurd (h.symm.trans h1) n2
      · exact absurd (h.symm.trans h1) n3
  rw [if_neg h1] at h
  by_cases h2 : type = "allplayall".toList
  · rw [if_pos h2] at h
    have h := Option.some.inj h
    subst h
    simp only [map_ok]
    constructor
    · rintro ⟨p, hp, rfl⟩; rw [h2]; exact .allplayall hp
    · intro hd
      rcases inv hd with ⟨h, _⟩ | ⟨_, h⟩ | ⟨h | h, _⟩
      · exact absurd h h1
      · exact h
      · exact absurd (h.symm.trans h2) n4
      · exact absurd (h.symm.trans h2) n5
  rw [if_neg h2] at h
  by_cases h3 : type = "ce_tuner".toList ∨ type = "mc_tuner".toList
  · rw [if_pos h3] at h
    have h := Option.some.inj h
    subst h
    simp only [map_ok]
    constructor
    · rintro ⟨p, hp, rfl⟩
      rcases h3 with h3 | h3
      · rw [h3] at hp ⊢; exact .cem hp
      · rw [h3] at hp ⊢; exact .mcts hp
    · intro hd
      rcases inv hd with ⟨h, _⟩ | ⟨h, _⟩ | ⟨_, h⟩
      · exact absurd h h1
      · exact absurd h h2
      · exact h
  rw [if_neg h3] at h
  cases h

theorem competitionOf_error {type dir code : Str} {init : List (Str × Val) → Except Err (Competition τ)} (h : competitionOf C type dir code = some init)
    {e : Err} (he : init config = .error e) : CantDescribe C dir code config type e := by
  unfold competitionOf at h
  by_cases h1 : type = "playoff".toList
  · rw [if_pos h1] at h
    have h := Option.some.inj h
    subst h
    rw [h1]; exact .playoff (map_error.1 he)
  rw [if_neg h1] at h
  by_cases h2 : type = "allplayall".toList
  · rw [if_pos h2] at h
    have h := Option.some.inj h
    subst h
    rw [h2]; exact .allplayall (map_error.1 he)
  rw [if_neg h2] at h
  by_cases h3 : type = "ce_tuner".toList ∨ type = "mc_tuner".toList
  · rw [if_pos h3] at h
    have h := Option.some.inj h
    subst h
    have he := map_error.1 he
    rcases h3 with h3 | h3
    · rw [h3] at he ⊢; exact .cem he
    · rw [h3] at he ⊢; exact .mcts he
  rw [if_neg h3] at h
  cases h

theorem handled_ok {α : Type} {x : Except Err α} {a : α} : handled C x = .ok a ↔ x = .ok a := by
  cases x with
  | error e => exact ⟨(fun h => nomatch h), (fun h => nomatch h)⟩
  | ok b => exact ⟨fun h => by cases h; rfl, fun h => by cases h; rfl⟩

/-- What a Ringmaster made from a control file is like. -/
structure Spec.MadeFrom (C : ControlWorld τ) (control : Str) (r : Ringmaster τ) (config : List (Str × Val)) : Prop where
  paths : pathsOf control = .ok r.paths
  interpreted : Interpreted C control r.competitionType config
  recordGames : RingmasterFlag C.world config "record_games" true r.recordGames
  stderrToLog : RingmasterFlag C.world config "stderr_to_log" true r.stderrToLog
  skipPlayerChecks : RingmasterFlag C.world config "skip_player_checks" false r.skipPlayerChecks
  competition : Describes C r.paths.base r.paths.code config r.competitionType r.competition

theorem load_ok {P : Paths} {r : Ringmaster τ} : loadControlFile C P = .ok r ↔
    r.paths = P ∧ ∃ config, Interpreted C P.control r.competitionType config ∧ RingmasterFlag C.world config "record_games" true r.recordGames ∧
      RingmasterFlag C.world config "stderr_to_log" true r.stderrToLog ∧ RingmasterFlag C.world config "skip_player_checks" false r.skipPlayerChecks ∧
      Describes C P.base P.code config r.competitionType r.competition := by
  constructor
  · intro h
    unfold loadControlFile at h
    cases hr : C.read P.control with
    | error e => rw [hr] at h; cases h
    | ok source =>
      rw [hr] at h; simp only at h
      cases hp : parseCompetitionType source with
      | none => rw [hp] at h; cases h
      | some type =>
        rw [hp] at h; simp only at h
        cases hc : competitionOf C type P.base P.code with
        | none => rw [hc] at h; cases h
        | some init =>
          rw [hc] at h; simp only at h
          cases hu : Sgf.utf8Valid source with
          | false => rw [hu] at h; cases h
          | true =>
            rw [hu] at h
            simp only [Bool.not_true, Bool.false_eq_true, if_false] at h
            cases he : C.exec type source with
            | error e => rw [he] at h; cases h
            | ok config =>
              rw [he] at h; simp only at h
              cases hs : sameType config type with
              | false => rw [hs] at h; cases h
              | true =>
                rw [hs] at h
                simp only [Bool.not_true, Bool.false_eq_true, if_false] at h
                cases hf : handled C (ringmasterFlags C.world config) with
                | error e => rw [hf] at h; cases h
                | ok flags =>
                  rw [hf] at h; simp only at h
                  cases hi : handled C (init config) with
                  | error e => rw [hi] at h; cases h
                  | ok comp =>
                    rw [hi] at h; cases h
                    obtain ⟨f1, f2, f3⟩ := flags
                    obtain ⟨g1, g2, g3⟩ := flags_ok.1 (handled_ok.1 hf)
                    exact ⟨rfl, config, ⟨source, hr, parse_iff.1 hp, competitionOf_known.1 (by rw [hc]; rfl), hu, he, sameType_iff.1 hs⟩, g1, g2, g3,
                      (competitionOf_ok hc).1 (handled_ok.1 hi)⟩
  · rintro ⟨hpp, config, ⟨source, hr, ht, hk, hu, he, hs⟩, g1, g2, g3, hd⟩
    unfold loadControlFile
    rw [hr]; simp only
    rw [parse_iff.2 ht]; simp only
    obtain ⟨init, hc⟩ := Option.isSome_iff_exists.1 ((competitionOf_known (C := C) (dir := P.base) (code := P.code)).2 hk)
    rw [hc]; simp only
    rw [hu]
    simp only [Bool.not_true, Bool.false_eq_true, if_false]
    rw [he]; simp only
    rw [sameType_iff.2 hs]
    simp only [Bool.not_true, Bool.false_eq_true, if_false]
    rw [handled_ok.2 (flags_ok.2 ⟨g1, g2, g3⟩)]; simp only
    rw [handled_ok.2 ((competitionOf_ok hc).2 hd)]
    subst hpp
    rfl

theorem paths_control {control : Str} {P : Paths} (h : pathsOf control = .ok P) : P.control = control := by
  obtain ⟨_, _, _, _, _, hc, _⟩ := pathsOf_iff.1 h
  exact hc

/-- C77: when a Ringmaster can be made from a control file, and what it is. -/
theorem C77_ringmaster (C : ControlWorld τ) (control : Str) (r : Ringmaster τ) : newRingmaster C control = .ok r ↔ ∃ config, MadeFrom C control r config := by
  unfold newRingmaster
  constructor
  · intro h
    cases hp : pathsOf control with
    | error e => rw [hp] at h; cases h
    | ok P =>
      rw [hp] at h; simp only at h
      cases hl : loadControlFile C P with
      | error e => rw [hl] at h; cases e <;> cases h
      | ok r' =>
        rw [hl] at h; cases h
        obtain ⟨rfl, config, h1, h2, h3, h4, h5⟩ := load_ok.1 hl
        rw [paths_control hp] at h1
        exact ⟨config, hp, h1, h2, h3, h4, h5⟩
  · rintro ⟨config, hp, h1, h2, h3, h4, h5⟩
    rw [hp]; simp only
    rw [load_ok.2 ⟨rfl, config, by rw [paths_control hp]; exact h1, h2, h3, h4, h5⟩]

theorem load_error {P : Paths} {e : RmExc} (h : loadControlFile C P = .error e) :
    ∃ m, Refusal C P.control P.base P.code m ∧ ((e = .ringmaster m) ∨ ∃ m', e = .controlFile m' ∧ m = "error in control file:\n".toList ++ m') := by
  unfold loadControlFile at h
  cases hr : C.read P.control with
  | error e => rw [hr] at h; cases h; exact ⟨_, .read hr, .inl rfl⟩
  | ok source =>
    rw [hr] at h; simp only at h
    cases hp : parseCompetitionType source with
    | none => rw [hp] at h; cases h; exact ⟨_, .noType hr (parse_none.1 hp), .inr ⟨_, rfl, rfl⟩⟩
    | some type =>
      have hp' := parse_iff.1 hp
      rw [hp] at h; simp only at h
      cases hc : competitionOf C type P.base P.code with
      | none =>
        rw [hc] at h; cases h
        refine ⟨_, .unknown hr hp' ?_, .inr ⟨_, rfl, ?_⟩⟩
        · intro hk
          have := (competitionOf_known (C := C) (dir := P.base) (code := P.code)).2 hk
          rw [hc] at this
          cases this
        · rw [← List.append_assoc]; rfl
      | some init =>
        have hk : type ∈ competitionTypes.map String.toList := (competitionOf_known (C := C) (dir := P.base) (code := P.code)).1 (by rw [hc]; rfl)
        rw [hc] at h; simp only at h
        cases hu : Sgf.utf8Valid source with
        | false => rw [hu] at h; cases h; exact ⟨_, .encoding hr hp' hk hu, .inr ⟨_, rfl, rfl⟩⟩
        | true =>
          rw [hu] at h
          simp only [Bool.not_true, Bool.false_eq_true, if_false] at h
          cases he : C.exec type source with
          | error e => rw [he] at h; cases h; exact ⟨_, .python hr hp' hk hu he, .inr ⟨_, rfl, rfl⟩⟩
          | ok config =>
            rw [he] at h; simp only at h
            cases hs : sameType config type with
            | false =>
              rw [hs] at h; cases h
              refine ⟨_, .mismatch hr hp' hk hu he ?_, .inr ⟨_, rfl, rfl⟩⟩
              rw [← sameType_iff, hs]
              exact Bool.false_ne_true
            | true =>
              have hint : Interpreted C P.control type config := ⟨source, hr, hp', hk, hu, he, sameType_iff.1 hs⟩
              rw [hs] at h
              simp only [Bool.not_true, Bool.false_eq_true, if_false] at h
              cases hf : ringmasterFlags C.world config with
              | error e' =>
                rw [hf] at h
                obtain ⟨m, hm, rfl⟩ := flags_error hf
                cases h
                exact ⟨_, .flag hint hm, .inr ⟨m, rfl, rfl⟩⟩
              | ok flags =>
                obtain ⟨f1, f2, f3⟩ := flags
                rw [hf] at h
                cases hi : init config with
                | ok comp => rw [hi] at h; cases h
                | error e' =>
                  rw [hi] at h
                  have h : RmExc.ringmaster ("unhandled error in control file:\n".toList ++ C.trace e') = e ∧ e'.kind ≠ .controlFile ∨ RmExc.controlFile e'.msg = e ∧ e'.kind = .controlFile := by
                    simp only [handled, Except.error.injEq] at h
                    split at h
                    next hk => exact .inr ⟨h, hk⟩
                    next hk => exact .inl ⟨h, hk⟩
                  rcases h with ⟨rfl, hk⟩ | ⟨rfl, hk⟩
                  · exact ⟨_, .unhandled hint (flags_noerror hf) (competitionOf_error hc hi) hk, .inl rfl⟩
                  · exact ⟨_, .settings hint (flags_noerror hf) (competitionOf_error hc hi) hk, .inr ⟨_, rfl, rfl⟩⟩

theorem describes_not {dir code type : Str} {c : Competition τ} {e : Err} (h : Describes C dir code config type c) (h' : CantDescribe C dir code config type e) : False := by
  have inv : ∀ {t}, CantDescribe C dir code config t e →
      (t = "playoff".toList ∧ initPlayoff C.world (some dir) code config = .error e) ∨
      (t = "allplayall".toList ∧ initAllplayall C.world (some dir) code config = .error e) ∨
      ((t = "ce_tuner".toList ∨ t = "mc_tuner".toList) ∧ C.tuner t (some dir) code config = .error e) := by
    intro t h
    cases h with
    | playoff h => exact .inl ⟨rfl, h⟩
    | allplayall h => exact .inr (.inl ⟨rfl, h⟩)
    | cem h => exact .inr (.inr ⟨.inl rfl, h⟩)
    | mcts h => exact .inr (.inr ⟨.inr rfl, h⟩)
  cases h with
  | playoff h =>
    rcases inv h' with ⟨_, h'⟩ | ⟨h', _⟩ | ⟨h' | h', _⟩
    · rw [h] at h'; cases h'
    all_goals exact absurd h' (by decide)
  | allplayall h =>
    rcases inv h' with ⟨h', _⟩ | ⟨_, h'⟩ | ⟨h' | h', _⟩
    · exact absurd h' (by decide)
    · rw [h] at h'; cases h'
    all_goals exact absurd h' (by decide)
  | cem h =>
    rcases inv h' with ⟨h', _⟩ | ⟨h', _⟩ | ⟨_, h'⟩
    · exact absurd h' (by decide)
    · exact absurd h' (by decide)
    · rw [h] at h'; cases h'
  | mcts h =>
    rcases inv h' with ⟨h', _⟩ | ⟨h', _⟩ | ⟨_, h'⟩
    · exact absurd h' (by decide)
    · exact absurd h' (by decide)
    · rw [h] at h'; cases h'

theorem interpreted_unique {control t t' : Str} {c c' : List (Str × Val)} (h : Interpreted C control t c) (h' : Interpreted C control t' c') : t = t' ∧ c = c' := by
  obtain ⟨s, h1, h2, _, _, h3, _⟩ := h
  obtain ⟨s', h1', h2', _, _, h3', _⟩ := h'
  rw [h1] at h1'; cases h1'
  have := typeOf_unique h2 h2'
  subst this
  rw [h3] at h3'; cases h3'
  exact ⟨rfl, rfl⟩

theorem refusal_not {control dir code m t : Str} {c : List (Str × Val)} {r e s : Bool} {comp : Competition τ} (h : Interpreted C control t c)
    (hr : RingmasterFlag C.world c "record_games" true r) (he : RingmasterFlag C.world c "stderr_to_log" true e) (hs : RingmasterFlag C.world c "skip_player_checks" false s)
    (hd : Describes C dir code c t comp) : ¬ Refusal C control dir code m := by
  intro hm
  have hnf := flags_noerror (flags_ok.2 ⟨hr, he, hs⟩)
  have h0 := h
  obtain ⟨src, h1, h2, h3, h4, h5, h6⟩ := h
  cases hm with
  | read h => rw [h1] at h; cases h
  | noType h h' => rw [h1] at h; cases h; exact h' t h2
  | unknown h h' h'' => rw [h1] at h; cases h; rw [← typeOf_unique h2 h'] at h''; exact h'' h3
  | encoding h _ _ h' => rw [h1] at h; cases h; rw [h4] at h'; cases h'
  | python h h' _ _ h'' => rw [h1] at h; cases h; rw [← typeOf_unique h2 h', h5] at h''; cases h''
  | mismatch h h' _ _ h'' hn => rw [h1] at h; cases h; rw [← typeOf_unique h2 h', h5] at h''; cases h''; rw [← typeOf_unique h2 h'] at hn; exact hn h6
  | flag h h' => obtain ⟨rfl, rfl⟩ := interpreted_unique h0 h; exact hnf _ h'
  | settings h _ h' _ => obtain ⟨rfl, rfl⟩ := interpreted_unique h0 h; exact describes_not hd h'
  | unhandled h _ h' _ => obtain ⟨rfl, rfl⟩ := interpreted_unique h0 h; exact describes_not hd h'

/-- C77: a control file which isn't accepted is always refused with a RingmasterError, which says what is wrong with it; and nothing is wrong with one which is. -/
theorem C77_errors (C : ControlWorld τ) (control : Str) :
    (∀ e, newRingmaster C control = .error e →
      ∃ m, e = .ringmaster m ∧
        ((∃ ext ∈ outputExtensions, m = "forbidden control file extension: ".toList ++ ext.toList) ∨
         ∃ P, pathsOf control = .ok P ∧ Refusal C control P.base P.code m)) ∧
    (∀ r, newRingmaster C control = .ok r → ∀ m, ¬ Refusal C control r.paths.base r.paths.code m) := by
  constructor
  · intro e h
    unfold newRingmaster at h
    cases hp : pathsOf control with
    | error e' =>
      rw [hp] at h; cases h
      obtain ⟨_, _, _, ext, _, _, hx, rfl⟩ := ((C77_paths control).2 e).1 hp
      obtain ⟨x, hx', rfl⟩ := List.mem_map.1 hx
      exact ⟨_, rfl, .inl ⟨x, hx', rfl⟩⟩
    | ok P =>
      rw [hp] at h; simp only at h
      cases hl : loadControlFile C P with
      | ok r => rw [hl] at h; cases h
      | error e' =>
        rw [hl] at h
        obtain ⟨m, hm, h'⟩ := load_error hl
        rw [paths_control hp] at hm
        rcases h' with rfl | ⟨m', rfl, rfl⟩
        · cases h; exact ⟨m, rfl, .inr ⟨P, rfl, hm⟩⟩
        · cases h; exact ⟨_, rfl, .inr ⟨P, rfl, hm⟩⟩
  · intro r h m
    obtain ⟨config, h⟩ := (C77_ringmaster C control r).1 h
    exact refusal_not h.interpreted h.recordGames h.stderrToLog h.skipPlayerChecks h.competition

/-! ### An example -/

/-- The text of a control file. -/
def exampleSource : Str := "# A test\n\n  \ncompetition_type = 'playoff'\n\nboard_size = 19\n".toList

/-- A directory of control files. -/
def exampleControls : ControlWorld Unit where
  world := playoffWorld
  read p :=
    if p = "t/test.ctl".toList then .ok exampleSource
    else if p = "t/other.ctl".toList then .ok "competition_type = \"playoff\"".toList
    else if p = "t/crlf.ctl".toList then .ok "competition_type = 'playoff'\r\nboard_size = 19\r\n".toList
    else if p = "t/late.ctl".toList then .ok "board_size = 19\ncompetition_type = 'playoff'\n".toList
    else if p = "t/chess.ctl".toList then .ok "competition_type = 'chess'\n".toList
    else if p = "t/bytes.ctl".toList then .ok ("competition_type = 'playoff'\n# ".toList ++ [Char.ofNat 233])
    else .error "[Errno 2] No such file or directory".toList
  exec type source :=
    if source = exampleSource then .ok (("competition_type".toList, .str type) :: ("stderr_to_log".toList, .bool false) :: playoffConfig 1)
    else .ok [("competition_type".toList, .str "allplayall".toList)]
  tuner _ _ _ _ := .ok ()
  trace e := e.msg

/-- A Ringmaster in text form, or the error. -/
def ringmasterView (x : Except RmExc (Ringmaster Unit)) : List Str :=
  match x with
  | .ok r =>
    [r.paths.base, r.paths.code, r.competitionType, (match r.competition with | .playoff p => strInt p.matchups.length | _ => []),
     toString r.recordGames |>.toList, toString r.stderrToLog |>.toList, toString r.skipPlayerChecks |>.toList] ++ outputs r.paths
  | .error (.ringmaster m) => ["RingmasterError".toList, m]
  | .error _ => ["?".toList]

/-- C77: a control file, and some which are refused. -/
theorem C77_witness :
    ringmasterView (newRingmaster exampleControls "t/test.ctl".toList) =
      ["t".toList, "test".toList, "playoff".toList, "3".toList, "true".toList, "false".toList, "false".toList,
       "t/test.log".toList, "t/test.status".toList, "t/test.cmd".toList, "t/test.hist".toList, "t/test.report".toList, "t/test.games".toList, "t/test.void".toList,
       "t/test.gtplogs".toList] ∧
    ringmasterView (newRingmaster exampleControls "t/missing.ctl".toList) =
      ["RingmasterError".toList, "failed to read control file:\n[Errno 2] No such file or directory".toList] ∧
    ringmasterView (newRingmaster exampleControls "t/other.ctl".toList) = ["RingmasterError".toList, "error in control file:\ncompetition_type improperly specified".toList] ∧
    ringmasterView (newRingmaster exampleControls "t/late.ctl".toList) = ["RingmasterError".toList, "error in control file:\ncan't find competition_type".toList] ∧
    ringmasterView (newRingmaster exampleControls "t/chess.ctl".toList) = ["RingmasterError".toList, "error in control file:\nunknown competition type: chess".toList] ∧
    ringmasterView (newRingmaster exampleControls "t/bytes.ctl".toList) = ["RingmasterError".toList, "error in control file:\nfile is not encoded in utf-8".toList] ∧
    ringmasterView (newRingmaster exampleControls "t/test.hist".toList) = ["RingmasterError".toList, "forbidden control file extension: .hist".toList] := by
  refine ⟨by decide +kernel, by decide +kernel, by decide +kernel, by decide +kernel, by decide +kernel, by decide +kernel, by decide +kernel⟩

/-- C77: things to beware of: a file with DOS line endings is refused; a file in which `.status.new` follows the code of another competition is accepted as a control file
(although that is the name of a temporary file which that competition makes), and so is a file with a reserved extension whose name begins with it. -/
theorem C77_caveats :
    ringmasterView (newRingmaster exampleControls "t/crlf.ctl".toList) = ["RingmasterError".toList, "error in control file:\ncan't find competition_type".toList] ∧
    (∃ P P', pathsOf "x.ctl".toList = .ok P ∧ pathsOf (P.status ++ ".new".toList) = .ok P') ∧
    (∃ P P', pathsOf [] = .ok P ∧ P.code = [] ∧ P.log = ".log".toList ∧ pathsOf P.log = .ok P' ∧ P'.code = ".log".toList) := by
  refine ⟨by decide +kernel, ?_, ?_⟩
  · exact ⟨_, _, rfl, rfl⟩
  · exact ⟨_, _, rfl, rfl, rfl, rfl, rfl⟩

end Gomill.Conf
