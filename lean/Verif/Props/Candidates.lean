import Verif.Props.TunerConfig
import Verif.Model.Cem
/-
C84: the tuners' candidates and games.
-/
namespace Gomill.Conf
open Py Spec

section
variable {W : World} {T : Fns}

theorem engineParameters_ok {α : Type} {what : String} {code : α → Str} {fn : α → Val} : ∀ (ps : List α) (x : List Num) (vs : List Val),
    engineParameters T what code fn ps x = .ok vs ↔ List.Forall₂ (fun (q : α × Num) v => T.apply (fn q.1) q.2 = .ok v) (ps.zip x) vs
  | [], x, vs => by
    unfold engineParameters
    rw [List.zip_nil_left, List.forall₂_nil_left_iff]
    exact ⟨fun h => by injection h with h; exact h.symm, fun h => by rw [h]⟩
  | p :: ps, [], vs => by
    unfold engineParameters
    rw [List.zip_nil_right, List.forall₂_nil_left_iff]
    exact ⟨fun h => by injection h with h; exact h.symm, fun h => by rw [h]⟩
  | p :: ps, x :: xs, vs => by
    unfold engineParameters
    rw [List.zip_cons_cons]
    cases ha : T.apply (fn p) x with
    | error tb =>
      refine ⟨nofun, fun h => ?_⟩
      cases h with
      | cons h _ => rw [ha] at h; cases h
    | ok v =>
      dsimp only
      cases hr : engineParameters T what code fn ps xs with
      | error e =>
        refine ⟨nofun, fun h => ?_⟩
        cases h with
        | cons _ h => rw [(engineParameters_ok ps xs _).2 h] at hr; cases hr
      | ok r =>
        constructor
        · intro h; injection h with h; subst h; exact .cons ha ((engineParameters_ok ps xs _).1 hr)
        · intro h
          cases h with
          | cons h h' =>
            rw [ha] at h; injection h with h
            rw [(engineParameters_ok ps xs _).2 h'] at hr; injection hr with hr
            subst h hr; rfl

theorem engineParameters_error {α : Type} {what : String} {code : α → Str} {fn : α → Val} : ∀ (ps : List α) (x : List Num) (e : CandErr),
    engineParameters T what code fn ps x = .error e → ∃ pre q post vs tb, ps.zip x = pre ++ q :: post ∧
      List.Forall₂ (fun (q : α × Num) v => T.apply (fn q.1) q.2 = .ok v) pre vs ∧ T.apply (fn q.1) q.2 = .error tb ∧
      e = .competition ("error from ".toList ++ what.toList ++ " for ".toList ++ code q.1 ++ "\n".toList ++ tb)
  | [], x, e, h => by unfold engineParameters at h; cases h
  | p :: ps, [], e, h => by unfold engineParameters at h; cases h
  | p :: ps, x :: xs, e, h => by
    unfold engineParameters at h
    rw [List.zip_cons_cons]
    cases ha : T.apply (fn p) x with
    | error tb =>
      rw [ha] at h
      injection h with h; subst h
      exact ⟨[], (p, x), ps.zip xs, [], tb, rfl, .nil, ha, rfl⟩
    | ok v =>
      rw [ha] at h
      dsimp only at h
      cases hr : engineParameters T what code fn ps xs with
      | error e' =>
        rw [hr] at h
        injection h with h; subst h
        obtain ⟨pre, q, post, vs, tb, h1, h2, h3, h4⟩ := engineParameters_error ps xs _ hr
        exact ⟨(p, x) :: pre, q, post, v :: vs, tb, by rw [h1]; rfl, .cons ha h2, h3, h4⟩
      | ok r => rw [hr] at h; cases h

theorem playerConfig_iff {v : Val} {a : List Val} {k : List (Str × Val)} : makeCandidate.playerConfig v = some (a, k) ↔ v = .quiet "Player".toList a k := by
  unfold makeCandidate.playerConfig
  cases v
  case quiet c args kwargs =>
    dsimp only
    split
    · rename_i h
      subst h
      constructor
      · intro h; injection h with h; injection h with h h'; rw [h, h']
      · intro h; injection h with _ h h'; rw [h, h']
    · rename_i h
      refine ⟨nofun, fun h' => ?_⟩
      injection h' with h'
      exact absurd h' h
  all_goals exact ⟨nofun, nofun⟩

theorem playerConfig_none {v : Val} : makeCandidate.playerConfig v = none ↔ ∀ args kwargs, v ≠ .quiet "Player".toList args kwargs := by
  constructor
  · intro h a k hv
    rw [playerConfig_iff.2 hv] at h; cases h
  · intro h
    cases hp : makeCandidate.playerConfig v with
    | none => rfl
    | some x => exact absurd (playerConfig_iff.1 hp) (h _ _)

/-- The candidate, for either kind of tuner. -/
def candidateWith {α : Type} (W : World) (T : Fns) (base : Option Str) (what : String) (code : α → Str) (fn : α → Val) (maker : Val) (shown : List Val → Except Err Str) (ps : List α)
    (candidate : Str) (x : List Num) : Except CandErr Gtp.JobPlayer :=
  match engineParameters T what code fn ps x with
  | .error e => .error e
  | .ok vs => makeCandidate W T base maker (shown vs) candidate vs

theorem candidate_ok {α : Type} {base : Option Str} {what : String} {code : α → Str} {fn : α → Val} {maker : Val} {shown : List Val → Except Err Str} {ps : List α} {candidate : Str} {x : List Num}
    {p : Gtp.JobPlayer} : candidateWith W T base what code fn maker shown ps candidate x = .ok p ↔ CandidateIs W T base fn maker ps x candidate p := by
  unfold candidateWith CandidateIs
  constructor
  · intro h
    cases he : engineParameters T what code fn ps x with
    | error e => rw [he] at h; cases h
    | ok vs =>
      rw [he] at h
      dsimp only at h
      unfold makeCandidate at h
      cases hm : T.make maker vs with
      | error tb => rw [hm] at h; cases h
      | ok v =>
        rw [hm] at h
        dsimp only at h
        cases hp : makeCandidate.playerConfig v with
        | none =>
          rw [hp] at h
          dsimp only at h
          cases hr : T.repr v with
          | error e => rw [hr] at h; cases h
          | ok s => rw [hr] at h; cases h
        | some y =>
          obtain ⟨args, kwargs⟩ := y
          rw [hp] at h
          dsimp only at h
          have hv := playerConfig_iff.1 hp
          subst hv
          cases hq : playerFromConfig W base candidate args kwargs with
          | ok p' =>
            rw [hq] at h
            injection h with h; subst h
            exact ⟨vs, args, kwargs, (engineParameters_ok _ _ _).1 he, hm, hq⟩
          | error e =>
            rw [hq] at h
            dsimp only at h
            cases hs : shown vs with
            | error e => rw [hs] at h; cases h
            | ok s => rw [hs] at h; cases h
  · rintro ⟨vs, args, kwargs, h1, h2, h3⟩
    rw [(engineParameters_ok _ _ _).2 h1]
    dsimp only
    unfold makeCandidate
    rw [h2]
    dsimp only
    rw [playerConfig_iff.2 rfl]
    dsimp only
    rw [h3]

theorem candidate_error {α : Type} {base : Option Str} {what : String} {code : α → Str} (format : α → Str) {fn : α → Val} {maker : Val} {shown : List Val → Except Err Str} {ps : List α} {candidate : Str} {x : List Num}
    {e : CandErr} (hsh : ∀ vs s, shown vs = .ok s → ∃ l, List.Forall₂ (fun (q : α × Val) s => ShownAs W T (code q.1) (format q.1) q.2 s) (ps.zip vs) l ∧ s = join "; ".toList l)
    (h : candidateWith W T base what code fn maker shown ps candidate x = .error e) :
    (∃ m, e = .competition m ∧ CandidateFails W T base what code format fn maker ps x candidate m) ∨
    (∃ v e', T.repr v = .error e' ∧ e = .other e') ∨ ∃ vs e', shown vs = .error e' ∧ e = .other e' := by
  unfold candidateWith at h
  cases he : engineParameters T what code fn ps x with
  | error e' =>
    rw [he] at h
    injection h with h; subst h
    obtain ⟨pre, q, post, vs, tb, h1, h2, h3, h4⟩ := engineParameters_error _ _ _ he
    exact .inl ⟨_, h4, .function h1 h2 h3⟩
  | ok vs =>
    rw [he] at h
    dsimp only at h
    have hvs := (engineParameters_ok _ _ _).1 he
    unfold makeCandidate at h
    cases hm : T.make maker vs with
    | error tb => rw [hm] at h; injection h with h; subst h; exact .inl ⟨_, rfl, .maker hvs hm⟩
    | ok v =>
      rw [hm] at h
      dsimp only at h
      cases hp : makeCandidate.playerConfig v with
      | none =>
        rw [hp] at h
        dsimp only at h
        cases hr : T.repr v with
        | error e => rw [hr] at h; injection h with h; exact .inr (.inl ⟨_, _, hr, h.symm⟩)
        | ok s => rw [hr] at h; injection h with h; subst h; exact .inl ⟨_, rfl, .other hvs hm (playerConfig_none.1 hp) hr⟩
      | some y =>
        obtain ⟨args, kwargs⟩ := y
        rw [hp] at h
        dsimp only at h
        have hv := playerConfig_iff.1 hp
        subst hv
        cases hq : playerFromConfig W base candidate args kwargs with
        | ok p' => rw [hq] at h; cases h
        | error e1 =>
          rw [hq] at h
          dsimp only at h
          cases hs : shown vs with
          | error e => rw [hs] at h; injection h with h; exact .inr (.inr ⟨_, _, hs, h.symm⟩)
          | ok s => rw [hs] at h; injection h with h; subst h; obtain ⟨l, hl, rfl⟩ := hsh _ _ hs; exact .inl ⟨_, rfl, .bad hvs hm hq hl⟩

theorem formatOne_ok {code format : Str} {v : Val} {s : Str} : formatOne W T code format v = .ok s ↔ ShownAs W T code format v s := by
  unfold formatOne ShownAs
  cases hp : T.percent format v with
  | some t =>
    dsimp only
    constructor
    · intro h; injection h with h; exact .inl (by rw [h])
    · rintro (h | ⟨h, _⟩)
      · injection h with h; rw [h]
      · cases h
  | none =>
    dsimp only
    cases hs : showOf W v with
    | ok t =>
      dsimp only
      constructor
      · intro h; injection h with h; exact .inr ⟨rfl, t, rfl, h.symm⟩
      · rintro (h | ⟨_, t', h, rfl⟩)
        · cases h
        · injection h with h; rw [h]
    | error e =>
      refine ⟨nofun, ?_⟩
      rintro (h | ⟨_, t', h, rfl⟩)
      · cases h
      · cases h

theorem formatEngine_ok {α : Type} {code format : α → Str} : ∀ (ps : List α) (vs : List Val) (l : List Str),
    formatEngine W T code format ps vs = .ok l ↔ List.Forall₂ (fun (q : α × Val) s => ShownAs W T (code q.1) (format q.1) q.2 s) (ps.zip vs) l
  | [], x, vs => by
    unfold formatEngine
    rw [List.zip_nil_left, List.forall₂_nil_left_iff]
    exact ⟨fun h => by injection h with h; exact h.symm, fun h => by rw [h]⟩
  | p :: ps, [], vs => by
    unfold formatEngine
    rw [List.zip_nil_right, List.forall₂_nil_left_iff]
    exact ⟨fun h => by injection h with h; exact h.symm, fun h => by rw [h]⟩
  | p :: ps, x :: xs, l => by
    unfold formatEngine
    rw [List.zip_cons_cons]
    cases ha : formatOne W T (code p) (format p) x with
    | error tb =>
      refine ⟨nofun, fun h => ?_⟩
      cases h with
      | cons h _ => rw [← formatOne_ok, ha] at h; cases h
    | ok v =>
      dsimp only
      cases hr : formatEngine W T code format ps xs with
      | error e =>
        refine ⟨nofun, fun h => ?_⟩
        cases h with
        | cons _ h => rw [(formatEngine_ok ps xs _).2 h] at hr; cases hr
      | ok r =>
        constructor
        · intro h; injection h with h; subst h; exact .cons (formatOne_ok.1 ha) ((formatEngine_ok ps xs _).1 hr)
        · intro h
          cases h with
          | cons h h' =>
            rw [← formatOne_ok, ha] at h; injection h with h
            rw [(formatEngine_ok ps xs _).2 h'] at hr; injection hr with hr
            subst h hr; rfl

theorem formatEngine_error {α : Type} {code format : α → Str} : ∀ (ps : List α) (vs : List Val) (e : Err),
    formatEngine W T code format ps vs = .error e → ∃ v, showOf W v = .error e
  | [], x, e, h => by unfold formatEngine at h; cases h
  | p :: ps, [], e, h => by unfold formatEngine at h; cases h
  | p :: ps, x :: xs, e, h => by
    unfold formatEngine at h
    cases ha : formatOne W T (code p) (format p) x with
    | error e' =>
      rw [ha] at h
      injection h with h; subst h
      unfold formatOne at ha
      split at ha
      · cases ha
      · split at ha
        · cases ha
        · rename_i h; injection ha with ha; subst ha; exact ⟨_, h⟩
    | ok v =>
      rw [ha] at h
      dsimp only at h
      cases hr : formatEngine W T code format ps xs with
      | error e' => rw [hr] at h; injection h with h; subst h; exact formatEngine_error ps xs _ hr
      | ok r => rw [hr] at h; cases h

theorem shown_ok {α : Type} {code format : α → Str} {ps : List α} {vs : List Val} {s : Str} (h : joinFormats (formatEngine W T code format ps vs) = .ok s) :
    ∃ l, List.Forall₂ (fun (q : α × Val) s => ShownAs W T (code q.1) (format q.1) q.2 s) (ps.zip vs) l ∧ s = join "; ".toList l := by
  cases hf : formatEngine W T code format ps vs with
  | error e => rw [hf] at h; cases h
  | ok l => rw [hf] at h; injection h with h; exact ⟨l, (formatEngine_ok _ _ _).1 hf, h.symm⟩

theorem shown_error {l : Except Err (List Str)} {e : Err} (h : joinFormats l = .error e) : l = .error e := by
  unfold joinFormats at h
  split at h
  · cases h
  · injection h with h; rw [h]

end

/-- C84: a candidate is made exactly when the functions work, make_candidate gives a `Player(...)`, and that describes a player; and the candidate is that player, with the
given code.  (Python guarantees that the keyword arguments have different names.) -/
theorem C84_candidate (W : World) (T : Fns) (base : Option Str) (candidate : Str) (x : List Num) (p : Gtp.JobPlayer) :
    (∀ t : CemTuner, t.candidate W T base candidate x = .ok p ↔ CandidateIs W T base CemParam.transform t.base.maker t.parameters x candidate p) ∧
    (∀ t : MctsTuner, t.candidate W T base candidate x = .ok p ↔ CandidateIs W T base MctsParam.scale t.base.maker t.parameters x candidate p) ∧
    ∀ {α : Type} (fn : α → Val) (maker : Val) (ps : List α), (∀ vs c args kwargs, T.make maker vs = .ok (.quiet c args kwargs) → (kwargs.map Prod.fst).Nodup) →
      CandidateIs W T base fn maker ps x candidate p → p.code = candidate ∧ GoodWords p := by
  refine ⟨fun t => ?_, fun t => ?_, ?_⟩
  · exact candidate_ok (shown := fun vs => joinFormats (formatEngine W T CemParam.code CemParam.format t.parameters vs))
  · exact candidate_ok (shown := fun vs => joinFormats (formatEngine W T MctsParam.code MctsParam.format t.parameters vs))
  · rintro α fn maker ps hkw ⟨vs, args, kwargs, _, h2, h3⟩
    have hn := hkw _ _ _ _ h2
    exact ⟨((C74_player W base candidate args kwargs hn).1 p h3).2.code, fun komi hk => C74_words W base candidate args kwargs hn p h3 komi hk⟩

/-- C84: if there's no candidate, CompetitionError is raised, and the message says why; except that if make_candidate gives an object which can't be shown, or the parameters are
to be shown in the message and can't be, there's whatever exception that causes. -/
theorem C84_errors (W : World) (T : Fns) (base : Option Str) (candidate : Str) (x : List Num) (e : CandErr) :
    (∀ t : CemTuner, t.candidate W T base candidate x = .error e →
      (∃ m, e = .competition m ∧ CandidateFails W T base "transform" CemParam.code CemParam.format CemParam.transform t.base.maker t.parameters x candidate m) ∨
      ∃ e', e = .other e' ∧ ∃ v, T.repr v = .error e' ∨ showOf W v = .error e') ∧
    (∀ t : MctsTuner, t.candidate W T base candidate x = .error e →
      (∃ m, e = .competition m ∧ CandidateFails W T base "scale" MctsParam.code MctsParam.format MctsParam.scale t.base.maker t.parameters x candidate m) ∨
      ∃ e', e = .other e' ∧ ∃ v, T.repr v = .error e' ∨ showOf W v = .error e') := by
  refine ⟨fun t h => ?_, fun t h => ?_⟩
  · rcases candidate_error CemParam.format (shown := fun vs => joinFormats (formatEngine W T CemParam.code CemParam.format t.parameters vs)) (fun _ _ => shown_ok) h with h | ⟨v, e', h, h'⟩ | ⟨vs, e', h, h'⟩
    · exact .inl h
    · exact .inr ⟨e', h', v, .inl h⟩
    · obtain ⟨v, hv⟩ := formatEngine_error _ _ _ (shown_error h)
      exact .inr ⟨e', h', v, .inr hv⟩
  · rcases candidate_error MctsParam.format (shown := fun vs => joinFormats (formatEngine W T MctsParam.code MctsParam.format t.parameters vs)) (fun _ _ => shown_ok) h with h | ⟨v, e', h, h'⟩ | ⟨vs, e', h, h'⟩
    · exact .inl h
    · exact .inr ⟨e', h', v, .inl h⟩
    · obtain ⟨v, hv⟩ := formatEngine_error _ _ _ (shown_error h)
      exact .inr ⟨e', h', v, .inr hv⟩

/-- C84: how the parameters are shown: separated by `; `. -/
theorem C84_shown (W : World) (T : Fns) (x : List Num) (s : Str) :
    (∀ t : CemTuner, t.describe W T x = .ok s ↔ ∃ vs l, List.Forall₂ (fun (q : CemParam × Num) v => T.apply q.1.transform q.2 = .ok v) (t.parameters.zip x) vs ∧
      List.Forall₂ (fun (q : CemParam × Val) s => ShownAs W T q.1.code q.1.format q.2 s) (t.parameters.zip vs) l ∧ s = join "; ".toList l) ∧
    (∀ t : MctsTuner, t.describe W T x = .ok s ↔ ∃ vs l, List.Forall₂ (fun (q : MctsParam × Num) v => T.apply q.1.scale q.2 = .ok v) (t.parameters.zip x) vs ∧
      List.Forall₂ (fun (q : MctsParam × Val) s => ShownAs W T q.1.code q.1.format q.2 s) (t.parameters.zip vs) l ∧ s = join "; ".toList l) := by
  refine ⟨fun t => ?_, fun t => ?_⟩
  · unfold CemTuner.describe
    constructor
    · intro h
      cases he : engineParameters T "transform" CemParam.code CemParam.transform t.parameters x with
      | error e => rw [he] at h; cases h
      | ok vs =>
        rw [he] at h
        dsimp only at h
        cases hf : formatEngine W T CemParam.code CemParam.format t.parameters vs with
        | error e => rw [hf] at h; cases h
        | ok l =>
          rw [hf] at h
          injection h with h
          exact ⟨vs, l, (engineParameters_ok _ _ _).1 he, (formatEngine_ok _ _ _).1 hf, h.symm⟩
    · rintro ⟨vs, l, h1, h2, rfl⟩
      rw [(engineParameters_ok _ _ _).2 h1]
      dsimp only
      rw [(formatEngine_ok _ _ _).2 h2]
      rfl
  · unfold MctsTuner.describe
    constructor
    · intro h
      cases he : engineParameters T "scale" MctsParam.code MctsParam.scale t.parameters x with
      | error e => rw [he] at h; cases h
      | ok vs =>
        rw [he] at h
        dsimp only at h
        cases hf : formatEngine W T MctsParam.code MctsParam.format t.parameters vs with
        | error e => rw [hf] at h; cases h
        | ok l =>
          rw [hf] at h
          injection h with h
          exact ⟨vs, l, (engineParameters_ok _ _ _).1 he, (formatEngine_ok _ _ _).1 hf, h.symm⟩
    · rintro ⟨vs, l, h1, h2, rfl⟩
      rw [(engineParameters_ok _ _ _).2 h1]
      dsimp only
      rw [(formatEngine_ok _ _ _).2 h2]
      rfl

theorem ident_hash {s : Str} (h : Ident s) : '#' ∉ s := by
  intro hm
  rcases h.2 _ hm with h | h | h | h
  · exact absurd h (by decide)
  · exact absurd h (by decide)
  · exact absurd h (by decide)
  · exact absurd h (by decide +kernel)

/-- C84: the candidates' codes contain `#`, so they aren't the codes of players in the control file. -/
theorem C84_codes (W : World) (T : Fns) (hW : PythonOK W) (base : Option Str) (code : Str) (config : List (Str × Val)) (t : TunerBase) (h : TunerOf W T base code config t) :
    (∀ c p, t.players.lookup c = some p → '#' ∉ c ∧ p.code = c) ∧ ('#' ∉ t.opponent.code) ∧ t.players.lookup t.opponent.code = some t.opponent ∧
    (∀ g n : Nat, '#' ∈ Cem.candidateCode g n) ∧ ∀ n : Nat, '#' ∈ "#".toList ++ strInt n := by
  have f := original_facts hW h.competition
  obtain ⟨o, _, ho⟩ := h.opponent
  obtain ⟨f1, f2, _⟩ := f _ _ ho
  refine ⟨fun c p hp => ⟨ident_hash (f c p hp).1, (f c p hp).2.1⟩, by rw [f2]; exact ident_hash f1, by rw [f2]; exact ho, ?_, ?_⟩
  · intro g n
    unfold Cem.candidateCode
    simp
  · intro n
    simp

/-- The games of a tuner, of whatever kind. -/
theorem job_core {W : World} (hW : PythonOK W) {base : Option Str} {config : List (Str × Val)} {t : TunerBase}
    (hcomp : initCompetition W base config = .ok (t.description, t.players)) (hr : GameRulesOf W (fun n => config.lookup n) t.rules) (ho : ∃ o, t.players.lookup o = some t.opponent)
    {δ : Type} (id : Str) (data : δ) (candidate : Gtp.JobPlayer) (hc : '#' ∈ candidate.code) (hw : GoodWords candidate) (random : Colour) (note : Str) (komi : Rat)
    (hk : t.rules.komi = .fin komi) :
    ∃ job c, t.job id data candidate random note = some job ∧ (t.colour = some c ∨ (t.colour = none ∧ c = random)) ∧ TunerJob t id data candidate c komi note job ∧
      (∀ k, job.handicap = some k → HandicapOK job.boardSize k job.handicapIsFree) ∧ ∀ c, GoodWords (job.player c) := by
  obtain ⟨o, ho⟩ := ho
  have fo := original_facts hW hcomp _ _ ho
  have f2 : '#' ∉ t.opponent.code := by rw [fo.2.1]; exact ident_hash fo.1
  have hsize : 2 ≤ t.rules.boardSize ∧ t.rules.boardSize ≤ 25 := by
    rcases hr.boardSize with ⟨v, _, h⟩ | ⟨_, h⟩
    · exact h.2
    · cases h
  have hlimit : 0 < t.rules.moveLimit := by
    rcases hr.moveLimit with ⟨v, _, h⟩ | ⟨_, h⟩
    · exact h.2
    · injection h with h; rw [← h]; decide
  have hstyle : t.rules.handicapStyle = "fixed".toList ∨ t.rules.handicapStyle = "free".toList := by
    rcases hr.handicapStyle with ⟨v, _, h⟩ | ⟨_, h⟩
    · rcases List.mem_cons.1 h.1 with h | h
      · exact .inl h
      · exact .inr (List.mem_singleton.1 h)
    · injection h with h; exact .inl h.symm
  have hne : candidate.code ≠ t.opponent.code := fun e => f2 (e ▸ hc)
  have hcast : (t.rules.boardSize.toNat : Int) = t.rules.boardSize := Int.toNat_of_nonneg (by omega)
  have hopp : ∀ c : Colour, c.opponent ≠ c := by intro c; cases c <;> decide
  refine ⟨_, t.chooseColour random, by unfold TunerBase.job; rw [hk], ?_, ⟨rfl, rfl, if_pos rfl, if_neg (hopp _), ?_, ⟨hcast, ?_, ?_⟩, rfl, ⟨rfl, hlimit⟩, rfl, decide_eq_true_iff,
    decide_eq_true_iff, ⟨?_, ?_, ?_⟩, rfl, rfl⟩, ?_, ?_⟩
  · unfold TunerBase.chooseColour
    cases t.colour with
    | none => exact .inr ⟨rfl, rfl⟩
    | some c => exact .inl rfl
  · show (if Colour.b = t.chooseColour random then candidate else t.opponent).code ≠ (if Colour.w = t.chooseColour random then candidate else t.opponent).code
    cases t.chooseColour random with
    | b => rw [if_pos rfl, if_neg (by decide)]; exact hne
    | w => rw [if_neg (by decide), if_pos rfl]; exact hne.symm
  · show 2 ≤ t.rules.boardSize.toNat
    omega
  · show t.rules.boardSize.toNat ≤ 25
    omega
  · intro hc; show compensationOf t.rules.compensation = _; rw [hc]; decide
  · intro hc; show compensationOf t.rules.compensation = _; rw [hc]; decide
  · intro hc; show compensationOf t.rules.compensation = _; rw [hc]; decide
  · intro k hk'
    let m : Matchup := { id := [], player1 := [], player2 := ['x'], boardSize := t.rules.boardSize, komi := t.rules.komi, handicap := t.rules.handicap, handicapStyle := t.rules.handicapStyle, moveLimit := t.rules.moveLimit, scorer := t.rules.scorer, compensation := t.rules.compensation, alternating := false, numberOfGames := none, name := [], event := [] }
    exact handicapAllowed_ok (m := m) ⟨hsize, hlimit, hr.allowed, hstyle, (fun h => by cases (h : ([] : Str) = ['x'])), (List.not_mem_nil : '/' ∉ ([] : Str))⟩ hk'
  · intro c
    show GoodWords (if c = t.chooseColour random then candidate else t.opponent)
    split
    · exact hw
    · exact fo.2.2

/-- C84: the games of an accepted tuner. The candidate has the colour from the control file or, if that is 'random', the colour which was chosen at random; the other player is the
opponent; the settings are those of the control file.  The handicap will be accepted by set_handicap, and the players will get only well-formed words because of the
configuration. -/
theorem C84_job (W : World) (T : Fns) (hW : PythonOK W) (base : Option Str) (code : Str) (config : List (Str × Val)) (t : TunerBase) (h : TunerOf W T base code config t)
    {δ : Type} (id : Str) (data : δ) (candidate : Gtp.JobPlayer) (hc : '#' ∈ candidate.code) (hw : GoodWords candidate) (random : Colour) (note : Str) (komi : Rat)
    (hk : t.rules.komi = .fin komi) :
    ∃ job c, t.job id data candidate random note = some job ∧ (t.colour = some c ∨ (t.colour = none ∧ c = random)) ∧ TunerJob t id data candidate c komi note job ∧
      (∀ k, job.handicap = some k → HandicapOK job.boardSize k job.handicapIsFree) ∧ ∀ c, GoodWords (job.player c) := by
  obtain ⟨o, _, ho⟩ := h.opponent
  exact job_core hW h.competition h.rules ⟨o, ho⟩ id data candidate hc hw random note komi hk

/-- C84: get_player_checks: the candidate and the opponent, with the board size and komi of the games. -/
theorem C84_checks (t : TunerBase) (candidate : Gtp.JobPlayer) :
    (t.checks candidate).map (fun c => c.1) = [candidate, t.opponent] ∧ ∀ c ∈ t.checks candidate, c.2.1 = t.rules.boardSize ∧ c.2.2 = t.rules.komi := by
  refine ⟨rfl, ?_⟩
  intro c hc
  unfold TunerBase.checks at hc
  rcases List.mem_cons.1 hc with rfl | hc
  · exact ⟨rfl, rfl⟩
  · rw [List.mem_singleton.1 hc]; exact ⟨rfl, rfl⟩

/-! ### An example -/

/-- A player, or the error. -/
def candidateView (x : Except CandErr Gtp.JobPlayer) : List Str :=
  match x with
  | .ok p => p.code :: p.cmdArgs
  | .error (.competition m) => ["CompetitionError".toList, m]
  | .error (.other e) => ["other".toList, e.msg]

def describeView (x : Except CandErr Str) : Str :=
  match x with
  | .ok s => s
  | .error _ => "error".toList

/-- The candidate, its parameters as they're shown, and the players of a game. -/
def tunerView (a b : Rat) : List (List Str) :=
  match initCem tunerWorld tunerFns none "test".toList (cemConfig 1) with
  | .error e => [[e.msg]]
  | .ok t => candidateView (t.candidate tunerWorld tunerFns none "g0#1".toList [.fin a, .fin b]) :: [describeView (t.describe tunerWorld tunerFns [.fin a, .fin b])] ::
      (match t.candidate tunerWorld tunerFns none "g0#1".toList [.fin a, .fin b] with
       | .ok p => (match t.base.job "0#1".toList () p .w (describeView (t.describe tunerWorld tunerFns [.fin a, .fin b])) with
         | some job => [[(job.player .b).code, (job.player .w).code, strInt job.boardSize, job.sgfEvent.getD [], job.sgfNote.getD []]]
         | none => [])
       | .error _ => [])

/-- What Python guarantees, for the example. -/
theorem tunerWorld_python : PythonOK tunerWorld := by
  refine ⟨?_, ?_, tunerWorld_kwargs⟩
  · intro v l h
    unfold tunerWorld at h
    simp only at h
    split at h
    · cases h
      have text : ∀ {v s}, Text v s → v = .str s ∨ v = .unicode s := by
        intro v s h
        cases h with
        | str => exact .inl rfl
        | unicode => exact .inr rfl
      refine List.pairwise_pair.2 ?_
      rintro s ⟨h1, h2⟩
      rcases text h1 with h1 | h1
      · rcases text h2 with h2 | h2
        · injection h1 with h1; injection h2 with h2
          exact absurd (h1.trans h2.symm) (by decide)
        · exact nomatch h2
      · exact nomatch h1
    · cases h
  · intro v l h
    unfold tunerWorld at h
    simp only at h
    split at h
    · cases h
      intro c args kwargs hm
      rcases List.mem_cons.1 hm with h | hm
      · cases h; decide
      · rcases List.mem_cons.1 hm with h | hm
        · cases h; decide
        · cases hm
    · cases h

/-- C84: a candidate for the cross-entropy tuner of `C83_witness`, with its game (the control file says that candidates have black); and the ways in which there may be none. -/
theorem C84_witness :
    PythonOK tunerWorld ∧
    (∀ vs c args kwargs, tunerFns.make (.obj 22) vs = .ok (.quiet c args kwargs) → (kwargs.map Prod.fst).Nodup) ∧
    tunerView 5 3 = [["g0#1".toList, "fuego".toList, "5".toList, "6".toList], ["alpha:5; b=6".toList],
      ["g0#1".toList, "p2".toList, "9".toList, "test".toList, "Candidate parameters: alpha:5; b=6".toList]] ∧
    tunerView 5 (-1) = [["CompetitionError".toList, "error from transform for beta\ntraceback".toList], ["error".toList]] ∧
    tunerView 0 1 = [["CompetitionError".toList, "error from make_candidate()\nzero".toList], ["alpha:0; b=2".toList]] ∧
    tunerView 1 1 = [["CompetitionError".toList, "make_candidate() returned 1, not Player".toList], ["alpha:1; b=2".toList]] ∧
    tunerView 2 1 = [["CompetitionError".toList, "bad player spec from make_candidate():\n'command' not specified\nparameters were: [alpha??]; b=2".toList], ["[alpha??]; b=2".toList]] := by
  refine ⟨tunerWorld_python, ?_, by decide +kernel, by decide +kernel, by decide +kernel, by decide +kernel, by decide +kernel⟩
  intro vs c args kwargs h
  unfold tunerFns at h
  simp only at h
  split at h
  · split at h
    · cases h
    · split at h
      · cases h
      · split at h
        · cases h; decide
        · cases h; decide
  · cases h

end Gomill.Conf
