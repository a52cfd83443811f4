import Verif.Lemmas.Cem
import Mathlib.Data.List.Nodup
import Mathlib.Data.List.Perm.Subperm
/-
C66: histories of a cross-entropy tuner, with restarts and crashes.
-/
namespace Gomill.Cem
open Py Sched SchedSpec CemSpec

/-- Settings which `initialise_from_control_file` accepts (cem_tuners.py:140-155, 231-233; identifiers don't contain '#'). -/
structure Config.Ok (c : Config) : Prop where
  samples : 1 ≤ c.samples
  batch : 1 ≤ c.batch
  generations : 1 ≤ c.generations
  elite : 0 < c.elite ∧ c.elite < 1
  step : 0 < c.step ∧ c.step < 1
  initial : c.initial ≠ [] ∧ ∀ p ∈ c.initial, 0 ≤ p.2
  opponent : '#' ∉ c.opponent

/-! ### The invariant -/

structure Params (n : Nat) (d : Dist) (samples : List (List Rat)) : Prop where
  ne : d ≠ []
  var : ∀ p ∈ d, 0 ≤ p.2
  len : samples.length = n
  dim : ∀ s ∈ samples, s.length = d.length

/-- Which generation the scheduler is for. -/
def Phase (n : Nat) (c : Config) (gen cur : Nat) (sch : Sched.Group Nat) : Prop :=
  (cur = gen ∧ ∃ i < n, (allocOf sch i).fixed < (c.batch : Int)) ∨
  (cur + 1 = gen ∧ gen = c.generations ∧ ∀ i < n, (allocOf sch i).fixed ≥ (c.batch : Int))

structure SavedInv (n lo hi : Nat) (c : Config) (s : Saved) (l : List Rec) (cur : Nat) : Prop where
  core : Core n c.batch lo hi cur s.scheduler s.wins l
  params : Params n s.distribution s.sampleParameters
  phase : Phase n c s.generation cur s.scheduler

structure IsJob (c : Config) (gen : Nat) (j : Job) : Prop where
  id : j.gameId = gameName gen j.candidate j.round
  code : j.code = candidateName gen j.candidate
  players : (j.playerB = j.code ∧ j.playerW = c.opponent) ∨ (j.playerB = c.opponent ∧ j.playerW = j.code)

structure RunInv (n lo hi : Nat) (r : Run) (l : List Rec) (cur : Nat) : Prop where
  core : Core n r.config.batch lo hi cur r.tuner.scheduler r.tuner.wins l
  params : Params n r.tuner.distribution r.tuner.sampleParameters
  phase : Phase n r.config r.tuner.generation cur r.tuner.scheduler
  limits : ∀ e ∈ r.tuner.scheduler, e.limit = some (r.config.batch : Int)
  cands : cur = r.tuner.generation → r.tuner.candidates = (List.range n).map (candidateName r.tuner.generation)
  jobs : ∀ p ∈ r.jobs, IsJob r.config cur p.1
  out : ∀ i t, ((i, t) ∈ r.jobs.map (fun p => (p.1.candidate, p.1.round)) → t ∈ (allocOf r.tuner.scheduler i).outstanding) ∧
    (r.stopping = false → t ∈ (allocOf r.tuner.scheduler i).outstanding → (i, t) ∈ r.jobs.map (fun p => (p.1.candidate, p.1.round)))
  nodup : (r.jobs.map (fun p => (p.1.candidate, p.1.round))).Nodup
  ok : r.config.Ok
  samples : r.config.samples = n
  lo : lo ≤ r.config.batch
  hi : r.config.batch ≤ hi

theorem candidateCode_eq : candidateCode = candidateName := rfl

theorem prepare_ok {e : Env} {g : Nat} {samples : List (List Rat)} {cs : List Str} (h : prepareCandidates e g samples = .ok cs) :
    cs = (List.range samples.length).map (candidateName g) := by
  unfold prepareCandidates at h
  split at h
  · exact (Except.ok.inj h).symm
  · cases h

theorem prepare_error {e : Env} {g : Nat} {samples : List (List Rat)} {x : TExc} (h : prepareCandidates e g samples = .error x) :
    x = .competitionError := by
  unfold prepareCandidates at h
  split at h
  · cases h
  · exact (Except.error.inj h).symm

theorem makeDistribution_ok {d : Dist} (h : d ≠ []) (hv : ∀ p ∈ d, 0 ≤ p.2) : makeDistribution d = .ok d := by
  unfold makeDistribution
  rw [if_neg h, if_neg]
  simp only [List.any_eq_true, decide_eq_true_eq, not_exists, not_and]
  intro p hp
  have := hv p hp
  linarith

/-! ### Starting -/

theorem SavedInv.change {n lo hi : Nat} {o c : Config} {s : Saved} {l cur} (h : SavedInv n lo hi o s l cur)
    (hc : (o.batch ≤ c.batch ∧ s.generation < o.generations) ∨ (c.generations = o.generations ∧ c.batch = o.batch)) : SavedInv n lo hi c s l cur := by
  rcases hc with ⟨h1, h2⟩ | ⟨h2, h3⟩
  · refine ⟨h.core.mono h1, h.params, ?_⟩
    rcases h.phase with ⟨a, i, hi, hx⟩ | ⟨a, b, _⟩
    · exact .inl ⟨a, i, hi, by omega⟩
    · omega
  · refine ⟨h3 ▸ h.core, h.params, ?_⟩
    rcases h.phase with ⟨a, i, hi, hx⟩ | ⟨a, b, hx⟩
    · exact .inl ⟨a, i, hi, by omega⟩
    · exact .inr ⟨a, by omega, fun i hi => by rw [h3]; exact hx i hi⟩

theorem load_inv {n lo hi : Nat} {c : Config} {e : Env} {s : Saved} {l cur} (h : SavedInv n lo hi c s l cur) (hok : c.Ok) (hn : c.samples = n)
    (hlo : lo ≤ c.batch) (hhi : c.batch ≤ hi) :
    Tuner.load c e s = .error .competitionError ∨ ∃ t, Tuner.load c e s = .ok t ∧ t.generation = s.generation ∧
      RunInv n lo hi ⟨c, t, [], false⟩ l cur := by
  unfold Tuner.load
  rw [makeDistribution_ok h.params.ne h.params.var]
  simp only
  cases hp : prepareCandidates e s.generation s.sampleParameters with
  | error x => exact .inl (by rw [prepare_error hp])
  | ok cs =>
    refine .inr ⟨_, rfl, rfl, ?_⟩
    obtain ⟨h1, h2, h3, h4⟩ := h.core.load (c := c) hn (Nat.le_refl _)
    refine ⟨h1, h.params, ?_, h2, ?_, by simp, ?_, by simp, hok, hn, hlo, hhi⟩
    · rcases h.phase with ⟨a, i, hi, hx⟩ | ⟨a, b, hx⟩
      · exact .inl ⟨a, i, hi, by rw [h4 i hi]; exact hx⟩
      · exact .inr ⟨a, b, fun i hi => by rw [h4 i hi]; exact hx i hi⟩
    · intro _
      rw [prepare_ok hp, h.params.len]
    · intro i t
      simp [h3]

theorem reset_inv {n lo hi : Nat} {c : Config} {e : Env} {t : Tuner} {l : List Rec} {jobs : List (Job × Nat)} {st : Bool} (hok : c.Ok) (hn : c.samples = n)
    (hlo : lo ≤ c.batch) (hhi : c.batch ≤ hi) (hne : t.distribution ≠ []) (hv : ∀ p ∈ t.distribution, 0 ≤ p.2)
    (hcore : Core n c.batch lo hi t.generation (Group.setGroups [] (groupSpecs c)) (List.replicate c.samples 0) l) (hj : jobs = []) :
    t.reset c e = .error .competitionError ∨ ∃ t', t.reset c e = .ok t' ∧ t'.generation = t.generation ∧ t'.distribution = t.distribution ∧
      RunInv n lo hi ⟨c, t', jobs, st⟩ l t.generation := by
  subst hj
  unfold Tuner.reset
  simp only
  cases hp : prepareCandidates e t.generation ((List.range c.samples).map (getSample e t.distribution)) with
  | error x => exact .inl (by rw [prepare_error hp])
  | ok cs =>
    refine .inr ⟨_, rfl, rfl, rfl, ?_⟩
    obtain ⟨h1, h2, h3, h4⟩ := setGroups_facts c []
    have hinit : ∀ i, allocOf (Group.setGroups [] (groupSpecs c)) i = Simple.init := by
      intro i; rw [h4]; split <;> rfl
    refine ⟨hcore, ⟨hne, hv, by simp [hn], ?_⟩, .inl ⟨rfl, 0, by have := hok.samples; omega, ?_⟩, h3, ?_, by simp, ?_, by simp, hok, hn, hlo, hhi⟩
    · intro s hs
      obtain ⟨i, _, rfl⟩ := List.mem_map.1 hs
      simp [getSample]
    · rw [hinit]
      have := hok.batch
      simp [Simple.init]; omega
    · intro _
      rw [prepare_ok hp]
      simp [hn]
    · intro i t
      simp [hinit, Simple.init]

theorem start_inv {n lo hi : Nat} {c : Config} {e : Env} {sv : Option Saved} {l : List Rec} (hok : c.Ok) (hn : c.samples = n)
    (hlo : lo ≤ c.batch) (hhi : c.batch ≤ hi) (h : ∀ s, sv = some s → ∃ cur, SavedInv n lo hi c s l cur) (h0 : sv = none → l = []) :
    startRun c e sv = .error .competitionError ∨ ∃ r, startRun c e sv = .ok r ∧ r.config = c ∧ r.jobs = [] ∧ ∃ cur, RunInv n lo hi r l cur ∧
      (sv = none → cur = 0) ∧ ∀ s, sv = some s → SavedInv n lo hi c s l cur ∧ r.tuner.generation = s.generation := by
  cases sv with
  | none =>
    rw [h0 rfl]
    have := reset_inv (e := e) (t := ⟨0, c.initial, [], [], [], [], false⟩) (l := []) (jobs := []) (st := false) hok hn hlo hhi
      hok.initial.1 hok.initial.2 (by rw [← hn]; exact core_clean c lo hi) rfl
    rcases this with hx | ⟨t, hx, _, _, hr⟩
    · exact .inl (by simp only [startRun, Tuner.clean]; rw [hx])
    · exact .inr ⟨⟨c, t, [], false⟩, by simp only [startRun, Tuner.clean]; rw [hx], rfl, rfl, _, hr, fun _ => rfl, fun _ hs => nomatch hs⟩
  | some s =>
    obtain ⟨cur, hs⟩ := h s rfl
    rcases load_inv (e := e) hs hok hn hlo hhi with hx | ⟨t, hx, hg, hr⟩
    · exact .inl (by simp only [startRun]; rw [hx])
    · exact .inr ⟨⟨c, t, [], false⟩, by simp only [startRun]; rw [hx], rfl, rfl, _, hr, (fun hh => nomatch hh), fun s' hs' => by cases hs'; exact ⟨hs, hg⟩⟩

/-! ### Games -/

theorem Core.outstanding_nil {n b lo hi cur : Nat} {sch wins l} (h : Core n b lo hi cur sch wins l) (hd : ∀ i < n, (allocOf sch i).fixed ≥ (b : Int))
    (i : Nat) : (allocOf sch i).outstanding = [] := by
  by_cases hi : i < n
  · exact (h.done (hd i hi)).2.2.1
  · cases ho : (allocOf sch i).outstanding with
    | nil => rfl
    | cons t ts => exact absurd (h.outstanding_lt (i := i) (r := t) (by rw [ho]; simp)) hi

theorem RunInv.jobs_nil {n lo hi : Nat} {r : Run} {l cur} (h : RunInv n lo hi r l cur)
    (hd : ∀ i < n, (allocOf r.tuner.scheduler i).fixed ≥ (r.config.batch : Int)) : r.jobs = [] := by
  cases hj : r.jobs with
  | nil => rfl
  | cons p ps =>
    have := (h.out p.1.candidate p.1.round).1 (by rw [hj]; simp)
    rw [h.core.outstanding_nil hd] at this
    cases this

theorem outstanding_issue {s : Simple} {evs : List Ev} (h : Sched.Inv s evs) :
    s.issue.1 ∉ s.outstanding ∧ ∀ t, t ∈ s.issue.2.outstanding ↔ t = s.issue.1 ∨ t ∈ s.outstanding := by
  unfold Simple.issue
  cases hm : s.toReissue.min? with
  | some r =>
    refine ⟨fun hr => h.disOR r hr (List.min?_mem hm), fun t => by simp [mem_setAdd, or_comm]⟩
  | none =>
    refine ⟨fun hr => ?_, fun t => by simp [mem_setAdd, or_comm]⟩
    have := (h.cover s.nextNew).2 (.inl hr)
    omega

theorem makeJob_isJob (c : Config) (e : Env) (g i t : Nat) : IsJob c g (makeJob c e i (candidateName g i) t) ∧
    (makeJob c e i (candidateName g i) t).candidate = i ∧ (makeJob c e i (candidateName g i) t).round = t := by
  unfold makeJob
  cases c.colour.getD e.coin with
  | b => exact ⟨⟨by simp [gameName_eq], rfl, .inl ⟨rfl, rfl⟩⟩, rfl, rfl⟩
  | w => exact ⟨⟨by simp [gameName_eq], rfl, .inr ⟨rfl, rfl⟩⟩, rfl, rfl⟩

theorem getGame_inv {n lo hi : Nat} {r : Run} {l cur} (h : RunInv n lo hi r l cur) (e : Env) :
    (∃ t, r.tuner.getGame r.config e = (.error .competitionError, t)) ∨
    (∃ t, r.tuner.getGame r.config e = (.ok none, t) ∧ RunInv n lo hi { r with tuner := t } l cur ∧
      ∀ i < n, (allocOf r.tuner.scheduler i).issued ≥ (r.config.batch : Int)) ∨
    (∃ j t, r.tuner.getGame r.config e = (.ok (some j), t) ∧ RunInv n lo hi { r with tuner := t, jobs := (j, 0) :: r.jobs } l cur ∧
      r.tuner.generation = cur ∧ j.candidate < n ∧
      ((allocOf r.tuner.scheduler j.candidate).issued < (r.config.batch : Int))) := by
  unfold Tuner.getGame
  cases hi : r.tuner.scheduler.issue with
  | mk x g =>
    cases x with
    | none =>
      obtain ⟨rfl, hav⟩ := issue_none hi
      refine .inr (.inl ⟨_, rfl, ⟨h.core, h.params, h.phase, h.limits, h.cands, h.jobs, h.out, h.nodup, h.ok, h.samples, h.lo, h.hi⟩, ?_⟩)
      intro i hin
      obtain ⟨x, hx, rfl⟩ := mem_codes.1 ((h.core.codes i).2 hin)
      have := hav x hx
      unfold GEntry.available at this
      rw [h.limits x hx] at this
      rw [allocOf_of_mem h.core.nodup hx]
      simpa using this
    | some p =>
      obtain ⟨i, t⟩ := p
      obtain ⟨hcore, hin, ht, hset, hlim⟩ := h.core.issue h.limits hi
      obtain ⟨e', he', hav, _, hc, _, _⟩ := issue_eq hi
      have hlt : (allocOf r.tuner.scheduler i).issued < (r.config.batch : Int) := by
        unfold GEntry.available at hav
        rw [h.limits e' he'] at hav
        rw [hc, allocOf_of_mem h.core.nodup he']
        simpa using hav
      have hphase : cur = r.tuner.generation ∧
          ∃ k < n, (allocOf r.tuner.scheduler k).fixed < (r.config.batch : Int) := by
        rcases h.phase with hp | ⟨_, _, hp⟩
        · exact hp
        · have := (h.core.done (hp i hin)).2.1
          omega
      obtain ⟨rfl, k, hk, hkf⟩ := hphase
      have hcand : r.tuner.candidates[i]? = some (candidateName r.tuner.generation i) := by
        rw [h.cands rfl]; simp [hin]
      obtain ⟨sp, hsp⟩ : ∃ sp, r.tuner.sampleParameters[i]? = some sp := by
        have : i < r.tuner.sampleParameters.length := by rw [h.params.len]; exact hin
        exact ⟨_, List.getElem?_eq_getElem this⟩
      simp only [hcand, hsp]
      cases e.describeOk with
      | false => exact .inl ⟨_, rfl⟩
      | true =>
        refine .inr (.inr ⟨_, _, rfl, ?_, trivial, ?_, ?_⟩)
        · obtain ⟨hj1, hj2, hj3⟩ := makeJob_isJob r.config e r.tuner.generation i t
          obtain ⟨evs, hev, _⟩ := h.core.alloc i
          obtain ⟨ho1, ho2⟩ := outstanding_issue hev
          refine ⟨hcore, h.params, .inl ⟨rfl, k, hk, ?_⟩, hlim, fun _ => h.cands rfl, ?_, ?_, ?_, h.ok, h.samples, h.lo, h.hi⟩
          · show (allocOf g k).fixed < _
            rw [hset]
            by_cases hki : k = i
            · rw [if_pos hki]
              subst hki
              unfold Simple.issue
              cases (allocOf r.tuner.scheduler k).toReissue.min? <;> exact hkf
            · rw [if_neg hki]; exact hkf
          · intro p hp
            rcases List.mem_cons.1 hp with rfl | hp
            · exact hj1
            · exact h.jobs p hp
          · intro a b
            simp only [List.map_cons, hj2, hj3, List.mem_cons, Prod.mk.injEq, hset]
            by_cases hai : a = i
            · subst hai
              rw [if_pos rfl, ho2, ht]
              constructor
              · rintro (⟨_, hb⟩ | hb)
                · exact .inl hb
                · exact .inr ((h.out a b).1 hb)
              · rintro hs (hb | hb)
                · exact .inl ⟨rfl, hb⟩
                · exact .inr ((h.out a b).2 hs hb)
            · rw [if_neg hai]
              constructor
              · rintro (⟨hb, _⟩ | hb)
                · exact absurd hb hai
                · exact (h.out a b).1 hb
              · intro hs hb
                exact .inr ((h.out a b).2 hs hb)
          · simp only [List.map_cons, hj2, hj3, List.nodup_cons]
            refine ⟨fun hm => ?_, h.nodup⟩
            have := (h.out i t).1 hm
            rw [ht] at this
            exact ho1 this
        · rw [(makeJob_isJob r.config e r.tuner.generation i t).2.1]; exact hin
        · rw [(makeJob_isJob r.config e r.tuner.generation i t).2.1]; exact hlt

theorem hash_mem (g i : Nat) : '#' ∈ candidateName g i := by simp [candidateName]

/-- What a game counts for the candidate. -/
theorem score_eq {c : Config} {g : Nat} {j : Job} (hok : c.Ok) (h : IsJob c g j) (x : Res) :
    (j.playerB = j.code ∧ j.playerW ≠ j.code ∧
      gameScore j.code (j.result x).winningPlayer = score (x.winningColour.map (fun w => decide (w = .b)))) ∨
    (j.playerW = j.code ∧ j.playerB ≠ j.code ∧
      gameScore j.code (j.result x).winningPlayer = score (x.winningColour.map (fun w => decide (w = .w)))) := by
  have hne : c.opponent ≠ j.code := by
    intro heq
    apply hok.opponent
    rw [heq, h.code]
    exact hash_mem _ _
  have hw : (j.result x).winningPlayer = playerGet (j.playerB, j.playerW) x.winningColour := rfl
  rw [hw]
  rcases h.players with ⟨h1, h2⟩ | ⟨h1, h2⟩
  · refine .inl ⟨h1, by rw [h2]; exact hne, ?_⟩
    cases hx : x.winningColour with
    | none => simp [playerGet, gameScore, score]
    | some w => cases w <;> simp [playerGet, gameScore, score, h1, h2, hne]
  · refine .inr ⟨h2, by rw [h1]; exact hne, ?_⟩
    cases hx : x.winningColour with
    | none => simp [playerGet, gameScore, score]
    | some w => cases w <;> simp [playerGet, gameScore, score, h1, h2, hne]

theorem eliteSamples_ok {samples : List (List Rat)} {order : List (Rat × Nat)} (h : ∀ p ∈ order, p.2 < samples.length) :
    eliteSamples samples order = .ok (order.map (fun p => samples.getD p.2 [])) := by
  induction order with
  | nil => rfl
  | cons p order ih =>
    have hp := h p (by simp)
    have := ih (fun x hx => h x (by simp [hx]))
    unfold eliteSamples at this ⊢
    rw [List.mapM_cons, this, List.getElem?_eq_getElem hp]
    simp [List.getD, hp]
    rfl

/-- A generation is finished: the new distribution comes from the best candidates. -/
theorem finish_spec {n : Nat} {c : Config} {e : Env} {t : Tuner} (hok : c.Ok) (hn : c.samples = n) (hp : Params n t.distribution t.sampleParameters)
    (hw : t.wins.length = n) :
    t.finishGeneration c e = .error .competitionError ∨ ∃ d elite, t.finishGeneration c e = .ok { t with distribution := d } ∧
      Best t.wins (eliteCount c) elite ∧ updateDistribution t.distribution (elite.map (fun i => t.sampleParameters.getD i [])) c.step = .ok d ∧
      d ≠ [] ∧ ∀ p ∈ d, 0 ≤ p.2 := by
  unfold Tuner.finishGeneration
  cases e.describeOk with
  | false => exact .inl rfl
  | true =>
    right
    have hcount := (C65_elite_count c hok.samples hok.elite)
    have hbest := C65_best t.wins (eliteCount c) (by rw [hw, ← hn]; exact hcount.2)
    have hel := eliteSamples_ok (samples := t.sampleParameters) (order := (sorter t.wins).take (eliteCount c)) (by
      intro p hp'
      have := hbest.valid p.2 (List.mem_map.2 ⟨p, hp', rfl⟩)
      rw [hp.len]; omega)
    have hmap : ((sorter t.wins).take (eliteCount c)).map (fun p => t.sampleParameters.getD p.2 []) =
        (((sorter t.wins).take (eliteCount c)).map (·.2)).map (fun i => t.sampleParameters.getD i []) := by
      rw [List.map_map]; rfl
    rw [hmap] at hel
    obtain ⟨d, hd, hl, hk⟩ := C65_update t.distribution ((((sorter t.wins).take (eliteCount c)).map (·.2)).map (fun i => t.sampleParameters.getD i [])) c.step
      hp.ne (by
        intro hnil
        have h1 := congrArg List.length hnil
        have h2 := hbest.count
        have h3 := hcount.1.atLeast
        rw [List.length_map] at h1
        simp only [List.length_nil] at h1
        omega) (by
        intro s hs
        obtain ⟨i, hi, rfl⟩ := List.mem_map.1 hs
        have hv := hbest.valid i hi
        have hlt : i < t.sampleParameters.length := by rw [hp.len]; omega
        apply hp.dim
        simp [List.getD, hlt]) hok.step hp.var
    refine ⟨d, _, ?_, hbest, hd, ?_, ?_⟩
    · simp only [Bool.not_true, Bool.false_eq_true, if_false, hel, hd]
    · intro hnil
      rw [hnil] at hl
      exact hp.ne (List.length_eq_zero_iff.1 hl.symm)
    · intro p hpd
      obtain ⟨k, hkl, rfl⟩ := List.mem_iff_getElem.1 hpd
      have hkd : k < t.distribution.length := by omega
      obtain ⟨m', v', h1, _, _, h4⟩ := hk k t.distribution[k].1 t.distribution[k].2 (by rw [List.getElem?_eq_getElem hkd])
      rw [List.getElem?_eq_getElem hkl] at h1
      rw [Option.some.inj h1]
      exact h4

/-- What a tuner has after a result: either the generation goes on, or it has been completed. -/
inductive After (n : Nat) (c : Config) (t t' : Tuner) (l : List Rec) : Prop
  | same (h1 : t'.generation = t.generation) (h2 : t'.distribution = t.distribution) (h3 : t'.sampleParameters = t.sampleParameters)
      (h4 : t'.candidates = t.candidates) (h5 : ∃ i < n, (rounds l t.generation i).length < c.batch)
  | next (elite : List Nat) (wins : List Rat) (h1 : t'.generation = t.generation + 1) (h2 : wins.length = n)
      (h3 : ∀ i < n, wins[i]? = some (pts l t.generation i)) (h4 : ∀ i < n, (rounds l t.generation i).Perm (List.range c.batch))
      (h5 : Best wins (eliteCount c) elite)
      (h6 : updateDistribution t.distribution (elite.map (fun i => t.sampleParameters.getD i [])) c.step = .ok t'.distribution)

theorem erase_out {jobs : List (Job × Nat)} {k : Nat} {j : Job × Nat} (hk : jobs[k]? = some j)
    (hn : (jobs.map (fun p => (p.1.candidate, p.1.round))).Nodup) :
    ((jobs.eraseIdx k).map (fun p => (p.1.candidate, p.1.round))).Nodup ∧
    ∀ x, x ∈ (jobs.eraseIdx k).map (fun p => (p.1.candidate, p.1.round)) ↔
      x ∈ jobs.map (fun p => (p.1.candidate, p.1.round)) ∧ x ≠ (j.1.candidate, j.1.round) := by
  induction jobs generalizing k with
  | nil => simp at hk
  | cons a jobs ih =>
    rw [List.map_cons, List.nodup_cons] at hn
    cases k with
    | zero =>
      simp only [List.getElem?_cons_zero, Option.some.injEq] at hk
      subst hk
      refine ⟨hn.2, fun x => ?_⟩
      simp only [List.eraseIdx_cons_zero, List.map_cons, List.mem_cons]
      constructor
      · intro hx
        exact ⟨.inr hx, fun heq => hn.1 (heq ▸ hx)⟩
      · rintro ⟨hx | hx, hne⟩
        · exact absurd hx hne
        · exact hx
    | succ k =>
      simp only [List.getElem?_cons_succ] at hk
      obtain ⟨h1, h2⟩ := ih hk hn.2
      have hj : (j.1.candidate, j.1.round) ∈ jobs.map (fun p => (p.1.candidate, p.1.round)) :=
        List.mem_map.2 ⟨j, List.mem_of_getElem? hk, rfl⟩
      simp only [List.eraseIdx_cons_succ, List.map_cons, List.nodup_cons, List.mem_cons]
      refine ⟨⟨fun hm => hn.1 ((h2 _).1 hm).1, h1⟩, fun x => ?_⟩
      rw [h2]
      constructor
      · rintro (hx | ⟨hx, hne⟩)
        · exact ⟨.inl hx, fun heq => hn.1 (hx ▸ heq ▸ hj)⟩
        · exact ⟨.inr hx, hne⟩
      · rintro ⟨hx | hx, hne⟩
        · exact .inl hx
        · exact .inr ⟨hx, hne⟩

theorem RunInv.mem_job {n lo hi : Nat} {r : Run} {l cur} (h : RunInv n lo hi r l cur) {j : Job × Nat} (hj : j ∈ r.jobs) :
    IsJob r.config cur j.1 ∧ j.1.round ∈ (allocOf r.tuner.scheduler j.1.candidate).outstanding ∧ j.1.candidate < n ∧
      cur = r.tuner.generation := by
  have ho := (h.out j.1.candidate j.1.round).1 (List.mem_map.2 ⟨j, hj, rfl⟩)
  refine ⟨h.jobs j hj, ho, h.core.outstanding_lt ho, ?_⟩
  rcases h.phase with ⟨a, _⟩ | ⟨_, _, hx⟩
  · exact a
  · rw [h.core.outstanding_nil hx] at ho; cases ho

theorem result_inv {n lo hi : Nat} {r : Run} {l cur} (h : RunInv n lo hi r l cur) {k : Nat} {j : Job × Nat} (hk : r.jobs[k]? = some j) (x : Res) (e : Env) :
    r.tuner.processResult r.config e j.1 (j.1.result x) = .error .competitionError ∨
    ∃ t, r.tuner.processResult r.config e j.1 (j.1.result x) = .ok t ∧
      (∃ cur', (cur < r.config.generations ↔ cur' < r.config.generations) ∧ RunInv n lo hi { r with tuner := t, jobs := r.jobs.eraseIdx k }
        (⟨cur, j.1.candidate, j.1.round, gameScore j.1.code (j.1.result x).winningPlayer⟩ :: l) cur') ∧
      After n r.config r.tuner t (⟨cur, j.1.candidate, j.1.round, gameScore j.1.code (j.1.result x).winningPlayer⟩ :: l) := by
  obtain ⟨hj, ho, hlt, hcur⟩ := h.mem_job (List.mem_of_getElem? hk)
  subst hcur
  generalize hq : gameScore j.1.code (j.1.result x).winningPlayer = q
  obtain ⟨sch, hfix, hlim, hout, hcore⟩ := h.core.fix h.limits ho q
  have hmemw : r.tuner.wins[j.1.candidate]? = some (pts l r.tuner.generation j.1.candidate) := h.core.wins _ hlt
  have hc := hcore _ hmemw
  have hpl : ¬ (j.1.code ≠ (j.1.result x).playerB ∧ j.1.code ≠ (j.1.result x).playerW) := by
    show ¬ (j.1.code ≠ j.1.playerB ∧ j.1.code ≠ j.1.playerW)
    rintro ⟨h1, h2⟩
    rcases hj.players with ⟨h3, _⟩ | ⟨_, h3⟩
    · exact h1 h3.symm
    · exact h2 h3.symm
  unfold Tuner.processResult
  rw [hfix]
  simp only [if_neg hpl, hmemw, hq]
  obtain ⟨hnd, hmem⟩ := erase_out hk h.nodup
  have hout' : ∀ i t, ((i, t) ∈ (r.jobs.eraseIdx k).map (fun p => (p.1.candidate, p.1.round)) → t ∈ (allocOf sch i).outstanding) ∧
      (r.stopping = false → t ∈ (allocOf sch i).outstanding → (i, t) ∈ (r.jobs.eraseIdx k).map (fun p => (p.1.candidate, p.1.round))) := by
    intro i t
    rw [hmem, hout]
    obtain ⟨evs, hev, _⟩ := h.core.alloc i
    by_cases hi : i = j.1.candidate
    · subst hi
      rw [if_pos rfl, hev.nodupO.mem_erase_iff]
      constructor
      · rintro ⟨ha, hb⟩
        exact ⟨fun heq => hb (by rw [heq]), (h.out _ _).1 ha⟩
      · rintro hs ⟨ha, hb⟩
        exact ⟨(h.out _ _).2 hs hb, fun heq => ha (Prod.mk.inj heq).2⟩
    · rw [if_neg hi]
      constructor
      · rintro ⟨ha, _⟩
        exact (h.out _ _).1 ha
      · intro hs hb
        exact ⟨(h.out _ _).2 hs hb, fun heq => hi (Prod.mk.inj heq).1⟩
  have hjobs : ∀ p ∈ r.jobs.eraseIdx k, IsJob r.config r.tuner.generation p.1 := fun p hp => h.jobs p (List.mem_of_mem_eraseIdx hp)
  have hall := allFixed_iff hc.nodup hc.codes hlim
  unfold Tuner.endOfResult
  by_cases haf : sch.allFixed = true
  · have hd := hall.1 haf
    simp only [haf, if_true]
    have hjnil : r.jobs.eraseIdx k = [] := by
      cases hje : r.jobs.eraseIdx k with
      | nil => rfl
      | cons p ps =>
        have := (hout' p.1.candidate p.1.round).1 (by rw [hje]; simp)
        rw [hc.outstanding_nil hd] at this
        cases this
    have hperm : ∀ i < n, (rounds (⟨r.tuner.generation, j.1.candidate, j.1.round, q⟩ :: l) r.tuner.generation i).Perm (List.range r.config.batch) :=
      fun i hi => (hc.done (hd i hi)).2.2.2.2
    rcases finish_spec (e := e) (t := { r.tuner with seenSuccess := true, scheduler := sch, wins := r.tuner.wins.set j.1.candidate (pts l r.tuner.generation j.1.candidate + q) }) h.ok h.samples h.params hc.winsLen with hx | ⟨d, elite, hx, hb, hu, hdne, hdv⟩
    · exact .inl (by rw [hx])
    · rw [hx]
      simp only
      by_cases hge : r.tuner.generation + 1 = r.config.generations
      · right
        rw [if_neg (by simpa using hge)]
        refine ⟨_, rfl, ⟨r.tuner.generation, Iff.rfl, ?_⟩, .next elite _ rfl hc.winsLen hc.wins hperm hb hu⟩
        have hlen : d.length = r.tuner.distribution.length := by
          obtain ⟨d', hd', hl, _⟩ := C65_update r.tuner.distribution (elite.map (fun i => r.tuner.sampleParameters.getD i [])) r.config.step
            h.params.ne (by
              intro hnil
              have h1 := congrArg List.length hnil
              have h2 := hb.count
              have h3 := (C65_elite_count r.config h.ok.samples h.ok.elite).1.atLeast
              rw [List.length_map] at h1
              simp only [List.length_nil] at h1
              omega) (by
              intro s hs
              obtain ⟨i, hi, rfl⟩ := List.mem_map.1 hs
              have hv := hb.valid i hi
              rw [hc.winsLen] at hv
              have hlt : i < r.tuner.sampleParameters.length := by rw [h.params.len]; omega
              apply h.params.dim
              simp [List.getD, hlt]) h.ok.step h.params.var
          have := hd'.symm.trans hu
          cases this
          exact hl
        refine ⟨hc, ⟨hdne, hdv, h.params.len, fun s hs => by rw [h.params.dim s hs]; exact hlen.symm⟩, .inr ⟨rfl, hge, hd⟩, hlim, ?_, hjobs, hout', hnd, h.ok, h.samples, h.lo, h.hi⟩
        intro heq
        have : r.tuner.generation = r.tuner.generation + 1 := heq
        omega
      · rw [if_pos (by simpa using hge)]
        have hcr := hc.reset (c := r.config) h.samples h.lo h.hi hd
        rcases reset_inv (e := e) (t := { r.tuner with seenSuccess := true, scheduler := sch, wins := r.tuner.wins.set j.1.candidate (pts l r.tuner.generation j.1.candidate + q), distribution := d, generation := r.tuner.generation + 1 })
          (jobs := r.jobs.eraseIdx k) (st := r.stopping) h.ok h.samples h.lo h.hi hdne hdv hcr hjnil with hx | ⟨t', hx, h1, h2, hr⟩
        · exact .inl hx
        · refine .inr ⟨t', hx, ⟨_, by simp only; omega, hr⟩, .next elite _ h1 hc.winsLen hc.wins hperm hb (by rw [h2]; exact hu)⟩
  · simp only [haf, Bool.false_eq_true, if_false]
    right
    have hnot : ∃ i < n, (allocOf sch i).fixed < (r.config.batch : Int) := by
      by_contra hcon
      apply haf
      rw [hall]
      intro i hi
      by_contra hlt'
      exact hcon ⟨i, hi, by omega⟩
    refine ⟨_, rfl, ⟨r.tuner.generation, Iff.rfl, ⟨hc, h.params, .inl ⟨rfl, hnot⟩, hlim, h.cands, hjobs, hout', hnd, h.ok, h.samples, h.lo, h.hi⟩⟩, .same rfl rfl rfl rfl ?_⟩
    obtain ⟨i, hi, hlt'⟩ := hnot
    obtain ⟨evs, e1, e2, e3⟩ := hc.alloc i
    have := e1.fixedN
    rw [e2] at this
    exact ⟨i, hi, by omega⟩

/-! ### The system -/

theorem RunInv.saved {n lo hi : Nat} {r : Run} {l cur} (h : RunInv n lo hi r l cur) : SavedInv n lo hi r.config r.tuner.save l cur :=
  ⟨h.core, h.params, h.phase⟩

/-- After a step which isn't starting a run. -/
inductive Stepped (n lo hi : Nat) (r : Run) (cur : Nat) (s s' : Sys) : Prop
  | down (h1 : s'.run = none) (h2 : s'.saved = s.saved) (h3 : s'.savedLog = s.savedLog)
  | on (r' : Run) (l' : List Rec) (cur' : Nat) (h1 : s'.run = some r') (h2 : r'.config = r.config) (h3 : s'.log = l'.map Rec.entry)
      (h4 : RunInv n lo hi r' l' cur') (h5 : cur < r.config.generations ↔ cur' < r.config.generations)
      (h6 : (s'.saved = s.saved ∧ s'.savedLog = s.savedLog) ∨ (s'.saved = some r'.tuner.save ∧ s'.savedLog = s'.log))

theorem write_stepped {n lo hi : Nat} {r r' : Run} {cur cur' : Nat} {s s0 : Sys} {l' : List Rec} (hs : s.saved = s0.saved) (hl : s.savedLog = s0.savedLog)
    (h2 : r'.config = r.config) (h3 : s.log = l'.map Rec.entry) (h4 : RunInv n lo hi r' l' cur')
    (h5 : cur < r.config.generations ↔ cur' < r.config.generations) (diskOk : Bool) : Stepped n lo hi r cur s0 (s.writeStatus r' diskOk) := by
  unfold Sys.writeStatus
  cases diskOk with
  | false => exact .down rfl hs hl
  | true => exact .on r' l' cur' rfl h2 h3 h4 h5 (.inr ⟨rfl, rfl⟩)

theorem set_map {jobs : List (Job × Nat)} {k : Nat} {j : Job × Nat} (hk : jobs[k]? = some j) (m : Nat) :
    (jobs.set k (j.1, m)).map (fun p => (p.1.candidate, p.1.round)) = jobs.map (fun p => (p.1.candidate, p.1.round)) ∧
    ∀ p ∈ jobs.set k (j.1, m), ∃ q ∈ jobs, p.1 = q.1 := by
  induction jobs generalizing k with
  | nil => simp at hk
  | cons a jobs ih =>
    cases k with
    | zero =>
      simp only [List.getElem?_cons_zero, Option.some.injEq] at hk
      subst hk
      refine ⟨rfl, fun p hp => ?_⟩
      rcases List.mem_cons.1 hp with rfl | hp
      · exact ⟨a, by simp, rfl⟩
      · exact ⟨p, by simp [hp], rfl⟩
    | succ k =>
      simp only [List.getElem?_cons_succ] at hk
      obtain ⟨h1, h2⟩ := ih hk
      simp only [List.set_cons_succ, List.map_cons, h1, true_and]
      intro p hp
      rcases List.mem_cons.1 hp with rfl | hp
      · exact ⟨p, by simp, rfl⟩
      · obtain ⟨q, hq, he⟩ := h2 p hp
        exact ⟨q, by simp [hq], he⟩

theorem processError_or (t : Tuner) (m : Nat) : t.processError m = (true, false) ∨ t.processError m = (false, true) := by
  unfold Tuner.processError
  split <;> simp

theorem step_run {n lo hi : Nat} {s : Sys} {r : Run} {l : List Rec} {cur : Nat} (hr : s.run = some r) (hl : s.log = l.map Rec.entry)
    (h : RunInv n lo hi r l cur) (op : SOp) (hop : ∀ c e, op ≠ .start c e) : Stepped n lo hi r cur s (s.step op) := by
  cases op with
  | start c e => exact absurd rfl (hop c e)
  | down => exact .down rfl rfl rfl
  | stop =>
    simp only [Sys.step, hr]
    exact .on _ l cur rfl rfl hl ⟨h.core, h.params, h.phase, h.limits, h.cands, h.jobs, fun i t => ⟨(h.out i t).1, (fun hh => nomatch hh)⟩, h.nodup, h.ok, h.samples, h.lo, h.hi⟩
      Iff.rfl (.inl ⟨rfl, rfl⟩)
  | getGame e =>
    simp only [Sys.step, hr]
    by_cases hst : r.stopping = true
    · rw [if_pos hst]
      exact .on r l cur hr rfl hl h Iff.rfl (.inl ⟨rfl, rfl⟩)
    · rw [if_neg hst]
      rcases getGame_inv h e with ⟨t, hx⟩ | ⟨t, hx, hi, _⟩ | ⟨j, t, hx, hi, _⟩
      · rw [hx]; exact .down rfl rfl rfl
      · rw [hx]; exact .on _ l cur rfl rfl hl hi Iff.rfl (.inl ⟨rfl, rfl⟩)
      · rw [hx]; exact .on _ l cur rfl rfl hl hi Iff.rfl (.inl ⟨rfl, rfl⟩)
  | result k x e diskOk =>
    simp only [Sys.step, hr]
    cases hk : r.jobs[k]? with
    | none => exact .on r l cur hr rfl hl h Iff.rfl (.inl ⟨rfl, rfl⟩)
    | some j =>
      simp only
      rcases result_inv h hk x e with hx | ⟨t, hx, ⟨cur', hiff, hi⟩, _⟩
      · rw [hx]; exact .down rfl rfl rfl
      · rw [hx]
        simp only
        refine write_stepped (r := r) (s0 := s) (by rfl) (by rfl) (by rfl) ?_ hi hiff diskOk
        simp only [List.map_cons, Rec.entry, hl, (h.jobs j (List.mem_of_getElem? hk)).id]
  | error k diskOk =>
    simp only [Sys.step, hr]
    cases hk : r.jobs[k]? with
    | none => exact .on r l cur hr rfl hl h Iff.rfl (.inl ⟨rfl, rfl⟩)
    | some j =>
      simp only
      rcases processError_or r.tuner j.2 with hx | hx
      · rw [hx]
        simp only [Bool.false_and, Bool.false_eq_true, if_false, Bool.or_true]
        refine write_stepped (r := r) (cur' := cur) rfl rfl (by rfl) hl ?_ Iff.rfl diskOk
        obtain ⟨hnd, hmem⟩ := erase_out hk h.nodup
        refine ⟨h.core, h.params, h.phase, h.limits, h.cands, fun p hp => h.jobs p (List.mem_of_mem_eraseIdx hp),
          fun i t => ⟨fun hm => (h.out i t).1 ((hmem _).1 hm).1, (fun hh => nomatch hh)⟩, hnd, h.ok, h.samples, h.lo, h.hi⟩
      · rw [hx]
        simp only [Bool.not_false, Bool.and_true, if_true]
        refine write_stepped (r := r) (cur' := cur) rfl rfl (by rfl) hl ?_ Iff.rfl diskOk
        obtain ⟨hmap, hmem⟩ := set_map hk (j.2 + 1)
        refine ⟨h.core, h.params, h.phase, h.limits, h.cands, ?_, ?_, ?_, h.ok, h.samples, h.lo, h.hi⟩
        · intro p hp
          obtain ⟨q, hq, he⟩ := hmem p hp
          rw [he]; exact h.jobs q hq
        · intro i t
          simp only [hmap]; exact h.out i t
        · simp only [hmap]; exact h.nodup

theorem step_none {s : Sys} (hr : s.run = none) (op : SOp) (hop : ∀ c e, op ≠ .start c e) : s.step op = s := by
  cases op with
  | start c e => exact absurd rfl (hop c e)
  | down => cases s; simp only at hr; subst hr; rfl
  | _ => simp only [Sys.step, hr]

/-- What can happen, if the tuner's settings satisfy some conditions.  There is a number of candidates; the batch size is never lowered, and is
between `lo` and `hi`; the number of generations is only changed in an event which isn't finished (according to the status file: the last run's
settings are `o`), to more than the number of generations which have been completed; and once the event is finished, the batch size isn't changed. -/
inductive Reached (n lo hi : Nat) : Sys → Option Config → Prop
  | init : Reached n lo hi ⟨none, none, [], []⟩ none
  | start {s o} (c : Config) (e : Env) (h : Reached n lo hi s o) (hr : s.run = none) (hc : c.Ok) (hn : c.samples = n)
      (hb : lo ≤ c.batch ∧ c.batch ≤ hi)
      (hs : ∀ o' sv, o = some o' → s.saved = some sv →
        (o'.batch ≤ c.batch ∧ sv.generation < o'.generations ∧ sv.generation < c.generations) ∨
        (c.generations = o'.generations ∧ c.batch = o'.batch)) :
      Reached n lo hi (s.step (.start c e)) (some c)
  | step {s o} (op : SOp) (h : Reached n lo hi s o) (hop : ∀ c e, op ≠ .start c e) : Reached n lo hi (s.step op) o

structure SysInv (n lo hi : Nat) (o : Option Config) (s : Sys) : Prop where
  saved : ∀ sv, s.saved = some sv → ∃ c l cur, o = some c ∧ s.savedLog = l.map Rec.entry ∧ SavedInv n lo hi c sv l cur ∧ cur < c.generations
  clean : s.saved = none → s.savedLog = []
  run : ∀ r, s.run = some r → o = some r.config ∧ ∃ l cur, s.log = l.map Rec.entry ∧ RunInv n lo hi r l cur ∧ cur < r.config.generations

theorem SavedInv.start {n lo hi : Nat} {o c : Config} {sv : Saved} {l cur} (h : SavedInv n lo hi o sv l cur) (hlt : cur < o.generations)
    (hc : (o.batch ≤ c.batch ∧ sv.generation < o.generations ∧ sv.generation < c.generations) ∨
        (c.generations = o.generations ∧ c.batch = o.batch)) : SavedInv n lo hi c sv l cur ∧ cur < c.generations := by
  rcases hc with ⟨h1, h2, h3⟩ | ⟨h1, h2⟩
  · refine ⟨h.change (.inl ⟨h1, h2⟩), ?_⟩
    rcases h.phase with ⟨a, _⟩ | ⟨a, b, _⟩ <;> omega
  · exact ⟨h.change (.inr ⟨h1, h2⟩), by omega⟩

theorem reached_inv {n lo hi : Nat} {s : Sys} {o : Option Config} (h : Reached n lo hi s o) : SysInv n lo hi o s := by
  induction h with
  | init => exact ⟨(fun _ h => nomatch h), fun _ => rfl, (fun _ h => nomatch h)⟩
  | @start s o c e h hr hc hn hb hs ih =>
    have hsv : ∀ sv, s.saved = some sv → ∃ l cur, s.savedLog = l.map Rec.entry ∧ SavedInv n lo hi c sv l cur ∧ cur < c.generations := by
      intro sv hsv
      obtain ⟨o', l, cur, ho, hl, hi, hlt⟩ := ih.saved sv hsv
      obtain ⟨h1, h2⟩ := hi.start hlt (hs o' sv ho hsv)
      exact ⟨l, cur, hl, h1, h2⟩
    have hsave : ∀ sv, s.saved = some sv → ∃ c' l cur, some c = some c' ∧ s.savedLog = l.map Rec.entry ∧ SavedInv n lo hi c' sv l cur ∧ cur < c'.generations := by
      intro sv hx
      obtain ⟨l, cur, h1, h2, h3⟩ := hsv sv hx
      exact ⟨c, l, cur, rfl, h1, h2, h3⟩
    have hcl : ∃ l, s.savedLog = l.map Rec.entry ∧ (∀ sv, s.saved = some sv → ∃ cur, SavedInv n lo hi c sv l cur ∧ cur < c.generations) ∧ (s.saved = none → l = []) := by
      cases hsa : s.saved with
      | none => exact ⟨[], ih.clean hsa, (fun _ h => nomatch h), fun _ => rfl⟩
      | some sv =>
        obtain ⟨l, cur, h1, h2, h3⟩ := hsv sv hsa
        exact ⟨l, h1, fun sv' hh => by cases hh; exact ⟨cur, h2, h3⟩, (fun h => nomatch h)⟩
    obtain ⟨l, hl, hl1, hl2⟩ := hcl
    have := start_inv (n := n) (lo := lo) (hi := hi) (c := c) (e := e) (sv := s.saved) (l := l) hc hn hb.1 hb.2
      (fun sv hx => (hl1 sv hx).imp fun _ hh => hh.1) hl2
    simp only [Sys.step, hr]
    rcases this with hx | ⟨r, hx, hrc, _, cur, hri, h0, hcur⟩
    · rw [hx]
      exact ⟨hsave, ih.clean, fun r hr' => by rw [hr] at hr'; cases hr'⟩
    · rw [hx]
      refine ⟨hsave, ih.clean, ?_⟩
      intro r' hr'
      cases hr'
      refine ⟨by rw [hrc], l, cur, hl, hri, ?_⟩
      rw [hrc]
      cases hsa : s.saved with
      | none => rw [h0 hsa]; exact hc.generations
      | some sv =>
        obtain ⟨cur', h1, h2⟩ := hl1 sv hsa
        have h3 := (hcur sv hsa).1
        -- the two generations are the same
        rcases h1.phase with ⟨a, i, hi', hx'⟩ | ⟨a, b, hx'⟩
        · rcases h3.phase with ⟨a', _⟩ | ⟨a', _, hy⟩
          · omega
          · omega
        · rcases h3.phase with ⟨a', i, hi', hy⟩ | ⟨a', _⟩
          · exact absurd (hx' i hi') (by omega)
          · omega
  | @step s o op h hop ih =>
    cases hr : s.run with
    | none => rw [step_none hr op hop]; exact ih
    | some r =>
      obtain ⟨ho, l, cur, hl, hri, hlt⟩ := ih.run r hr
      cases step_run hr hl hri op hop with
      | down h1 h2 h3 =>
        refine ⟨by rw [h2, h3]; exact ih.saved, by rw [h2, h3]; exact ih.clean, fun r' hr' => by rw [h1] at hr'; cases hr'⟩
      | on r' l' cur' h1 h2 h3 h4 h5 h6 =>
        have hlt' : cur' < r'.config.generations := by rw [h2]; exact h5.1 hlt
        refine ⟨?_, ?_, ?_⟩
        · rcases h6 with ⟨ha, hb⟩ | ⟨ha, hb⟩
          · rw [ha, hb]; exact ih.saved
          · intro sv hsv
            rw [ha] at hsv
            cases hsv
            exact ⟨r'.config, l', cur', by rw [ho, h2], by rw [hb, h3], h4.saved, hlt'⟩
        · rcases h6 with ⟨ha, hb⟩ | ⟨ha, hb⟩
          · rw [ha, hb]; exact ih.clean
          · rw [ha]; exact fun hh => nomatch hh
        · intro r'' hr''
          rw [h1] at hr''
          cases hr''
          exact ⟨by rw [ho, h2], l', cur', h3, h4, hlt'⟩

/-! ### The properties -/

theorem nodup_entries {l : List Rec} (h : ∀ g i, (rounds l g i).Nodup) : ((l.map Rec.entry).map (·.1)).Nodup := by
  induction l with
  | nil => simp
  | cons x l ih =>
    have h1 : ∀ g i, (rounds l g i).Nodup := by
      intro g i
      have := h g i
      rw [rounds_cons] at this
      split at this
      · exact (List.nodup_cons.1 this).2
      · exact this
    rw [List.map_cons, List.map_cons, List.nodup_cons]
    refine ⟨fun hm => ?_, ih h1⟩
    rw [List.map_map] at hm
    obtain ⟨y, hy, he⟩ := List.mem_map.1 hm
    have he' : gameName y.gen y.cand y.round = gameName x.gen x.cand x.round := he
    obtain ⟨a, b, c⟩ := gameName_inj he'
    have := h x.gen x.cand
    rw [rounds_cons, if_pos ⟨rfl, rfl⟩] at this
    exact (List.nodup_cons.1 this).1 (mem_rounds.2 ⟨y, hy, a, b, c⟩)

theorem Core.nodup_rounds {n b lo hi cur : Nat} {sch wins l} (h : Core n b lo hi cur sch wins l) (g i : Nat) : (rounds l g i).Nodup := by
  rcases Nat.lt_trichotomy g cur with hlt | heq | hgt
  · by_cases hi : i < n
    · obtain ⟨k, _, _, hk⟩ := h.past g hlt
      exact (hk i hi).nodup_iff.2 List.nodup_range
    · rw [rounds_none (fun x hx hh => by have := (h.range x hx).2; have := hh.2; omega)]; exact List.nodup_nil
  · subst heq
    obtain ⟨evs, h1, h2, _⟩ := h.alloc i
    rw [← h2]; exact h1.nodupF
  · rw [rounds_none (fun x hx hh => by have := (h.range x hx).1; omega)]; exact List.nodup_nil

theorem mem_names {l : List Rec} {g i t : Nat} : gameName g i t ∈ (l.map Rec.entry).map (·.1) ↔ t ∈ rounds l g i := by
  rw [mem_rounds, List.map_map, List.mem_map]
  constructor
  · rintro ⟨x, hx, he⟩
    obtain ⟨a, b, c⟩ := gameName_inj (show gameName x.gen x.cand x.round = gameName g i t from he)
    exact ⟨x, hx, a, b, c⟩
  · rintro ⟨x, hx, rfl, rfl, rfl⟩
    exact ⟨x, hx, rfl⟩

/-- Games have different names: those which have been played, and those which the ringmaster is waiting for.  Every game is for a candidate of
the current generation or an earlier one; the games the ringmaster is waiting for are for the current generation; and no candidate in the current
generation has more games than the batch size. -/
theorem C66_names {n lo hi : Nat} {s : Sys} {o : Option Config} {r : Run} (h : Reached n lo hi s o) (hr : s.run = some r) :
    (s.log.map (·.1)).Nodup ∧ (r.jobs.map (·.1.gameId)).Nodup ∧ (∀ p ∈ r.jobs, p.1.gameId ∉ s.log.map (·.1)) ∧
    (∀ p ∈ r.jobs, ∃ i t, i < n ∧ t < r.config.batch ∧ p.1.gameId = gameName r.tuner.generation i t ∧ p.1.code = candidateName r.tuner.generation i ∧
      ((p.1.playerB = p.1.code ∧ p.1.playerW = r.config.opponent) ∨ (p.1.playerB = r.config.opponent ∧ p.1.playerW = p.1.code))) ∧
    (∀ p ∈ s.log, ∃ g i t, p.1 = gameName g i t ∧ g ≤ r.tuner.generation ∧ i < n ∧ (g = r.tuner.generation → t < r.config.batch)) := by
  obtain ⟨_, l, cur, hl, hi, hlt⟩ := (reached_inv h).run r hr
  have hjob : ∀ p ∈ r.jobs, p.1.gameId = gameName cur p.1.candidate p.1.round := fun p hp => (hi.jobs p hp).id
  have hgen : cur ≤ r.tuner.generation := by
    rcases hi.phase with ⟨a, _⟩ | ⟨a, _⟩ <;> omega
  rw [hl]
  refine ⟨nodup_entries hi.core.nodup_rounds, ?_, ?_, ?_, ?_⟩
  · have := hi.nodup
    rw [List.map_congr_left (g := (fun q : Nat × Nat => gameName cur q.1 q.2) ∘ (fun p : Job × Nat => (p.1.candidate, p.1.round))) (fun p hp => hjob p hp),
      ← List.map_map]
    refine List.Nodup.map ?_ this
    rintro ⟨a, b⟩ ⟨c, d⟩ he
    obtain ⟨_, h1, h2⟩ := gameName_inj he
    simp only at h1 h2
    rw [h1, h2]
  · intro p hp hm
    rw [hjob p hp, mem_names] at hm
    have ho := (hi.mem_job hp).2.1
    obtain ⟨evs, h1, h2, _⟩ := hi.core.alloc p.1.candidate
    rw [← h2] at hm
    exact h1.disOF _ ho hm
  · intro p hp
    obtain ⟨hj, ho, hn, hc⟩ := hi.mem_job hp
    obtain ⟨evs, h1, h2, h3⟩ := hi.core.alloc p.1.candidate
    have := (h1.cover p.1.round).2 (.inl ho)
    exact ⟨p.1.candidate, p.1.round, hn, by omega, by rw [← hc]; exact hj.id, by rw [← hc]; exact hj.code, hj.players⟩
  · intro p hp
    obtain ⟨x, hx, rfl⟩ := List.mem_map.1 hp
    have hran := hi.core.range x hx
    refine ⟨x.gen, x.cand, x.round, rfl, by omega, hran.2, fun hg => ?_⟩
    have hc : x.gen = cur := by omega
    obtain ⟨evs, h1, h2, h3⟩ := hi.core.alloc x.cand
    have hm : x.round ∈ fixedTokens evs := by rw [h2]; exact mem_rounds.2 ⟨x, hx, hc, rfl, rfl⟩
    have := (h1.cover x.round).2 (.inr (.inr hm))
    omega

/-- In every generation which has been completed, every candidate has played exactly the same number of games, and that number is a batch size
which was in use. -/
theorem C66_completed {n lo hi : Nat} {s : Sys} {o : Option Config} {r : Run} (h : Reached n lo hi s o) (hr : s.run = some r) (g : Nat)
    (hg : g < r.tuner.generation) :
    ∃ k, lo ≤ k ∧ k ≤ hi ∧ ∀ i < n, ∀ t, gameName g i t ∈ s.log.map (·.1) ↔ t < k := by
  obtain ⟨_, l, cur, hl, hi, hlt⟩ := (reached_inv h).run r hr
  rw [hl]
  have hcase : g < cur ∨ (g = cur ∧ ∀ i < n, (allocOf r.tuner.scheduler i).fixed ≥ (r.config.batch : Int)) := by
    rcases hi.phase with ⟨a, _⟩ | ⟨a, _, hx⟩
    · left; omega
    · rcases Nat.lt_or_ge g cur with h1 | h1
      · exact .inl h1
      · exact .inr ⟨by omega, hx⟩
  rcases hcase with hc | ⟨rfl, hd⟩
  · obtain ⟨k, h1, h2, h3⟩ := hi.core.past g hc
    refine ⟨k, h1, h2, fun i hin t => ?_⟩
    rw [mem_names, (h3 i hin).mem_iff, List.mem_range]
  · refine ⟨r.config.batch, hi.lo, hi.hi, fun i hin t => ?_⟩
    rw [mem_names, (hi.core.done (hd i hin)).2.2.2.2.mem_iff, List.mem_range]

/-- The candidates' wins are those in the games which have been played in the current generation (when the event is finished, in the last one). -/
theorem C66_wins {n lo hi : Nat} {s : Sys} {o : Option Config} {r : Run} (h : Reached n lo hi s o) (hr : s.run = some r) :
    r.tuner.wins.length = n ∧ r.tuner.generation ≤ r.config.generations ∧
    (r.tuner.generation < r.config.generations → ∀ i < n, r.tuner.wins[i]? = some (points s.log r.tuner.generation i)) ∧
    (r.tuner.generation = r.config.generations → ∀ i < n, r.tuner.wins[i]? = some (points s.log (r.config.generations - 1) i)) := by
  obtain ⟨_, l, cur, hl, hi, hlt⟩ := (reached_inv h).run r hr
  rw [hl]
  refine ⟨hi.core.winsLen, ?_, ?_, ?_⟩
  · rcases hi.phase with ⟨a, _⟩ | ⟨a, _⟩ <;> omega
  · intro hg i hin
    have : cur = r.tuner.generation := by rcases hi.phase with ⟨a, _⟩ | ⟨a, _⟩ <;> omega
    rw [points_eq, ← this]
    exact hi.core.wins i hin
  · intro hg i hin
    have : r.config.generations - 1 = cur := by rcases hi.phase with ⟨a, _⟩ | ⟨a, _⟩ <;> omega
    rw [points_eq, this]
    exact hi.core.wins i hin

/-- The event ends exactly when the last generation has been completed: then nothing is being waited for and there are no more games; before that,
whenever the ringmaster isn't waiting for any games (and hasn't been told to stop) there is a game to play, of the current generation, which hasn't
been played. -/
theorem C66_finish {n lo hi : Nat} {s : Sys} {o : Option Config} {r : Run} (h : Reached n lo hi s o) (hr : s.run = some r) :
    (r.tuner.generation = r.config.generations → r.jobs = [] ∧ ∀ e, (r.tuner.getGame r.config e).1 = .ok none) ∧
    (r.tuner.generation < r.config.generations → r.jobs = [] → r.stopping = false → ∀ e, e.describeOk = true →
      ∃ j, (r.tuner.getGame r.config e).1 = .ok (some j) ∧ ∃ i t, i < n ∧ t < r.config.batch ∧ j.gameId = gameName r.tuner.generation i t ∧
        gameName r.tuner.generation i t ∉ s.log.map (·.1)) := by
  obtain ⟨ho, l, cur, hl, hi, hlt⟩ := (reached_inv h).run r hr
  constructor
  · intro hg
    have hd : ∀ i < n, (allocOf r.tuner.scheduler i).fixed ≥ (r.config.batch : Int) := by
      rcases hi.phase with ⟨a, _⟩ | ⟨_, _, hx⟩
      · omega
      · exact hx
    refine ⟨hi.jobs_nil hd, fun e => ?_⟩
    unfold Tuner.getGame
    cases hi' : r.tuner.scheduler.issue with
    | mk x g =>
      cases x with
      | none => rfl
      | some p =>
        exfalso
        obtain ⟨i, t⟩ := p
        obtain ⟨_, hin, _, _, _⟩ := hi.core.issue hi.limits hi'
        obtain ⟨e', he', hav, _, hc, _, _⟩ := issue_eq hi'
        have hlt' : (allocOf r.tuner.scheduler i).issued < (r.config.batch : Int) := by
          unfold GEntry.available at hav
          rw [hi.limits e' he'] at hav
          rw [hc, allocOf_of_mem hi.core.nodup he']
          simpa using hav
        have := (hi.core.done (hd i hin)).2.1
        omega
  · intro hg hj hst e hde
    rcases getGame_inv hi e with ⟨t, hx⟩ | ⟨t, hx, _, hall⟩ | ⟨j, t, hx, hi2, hcur, hjn, _⟩
    · exfalso
      unfold Tuner.getGame at hx
      split at hx
      · cases hx
      · split at hx
        · rw [hde] at hx; cases hx
        · cases hx
    · exfalso
      have : cur = r.tuner.generation ∧ ∃ i < n, (allocOf r.tuner.scheduler i).fixed < (r.config.batch : Int) := by
        rcases hi.phase with hp | ⟨_, hp, _⟩
        · exact hp
        · omega
      obtain ⟨_, i, hin, hf⟩ := this
      have h1 := hall i hin
      obtain ⟨evs, h2, _⟩ := hi.core.alloc i
      have h3 := h2.issuedN
      have h4 := h2.fixedN
      cases hos : (allocOf r.tuner.scheduler i).outstanding with
      | nil => rw [hos] at h3; simp at h3; omega
      | cons t ts =>
        have := (hi.out i t).2 hst (by rw [hos]; simp)
        rw [hj] at this
        simp at this
    · refine ⟨j, by rw [hx], ?_⟩
      have hm := hi2.mem_job (j := (j, 0)) (by simp)
      obtain ⟨hj1, hj2, hj3, hj4⟩ := hm
      obtain ⟨evs, h1, h2, h3⟩ := hi2.core.alloc j.candidate
      have := (h1.cover j.round).2 (.inl hj2)
      refine ⟨j.candidate, j.round, hjn, ?_, by rw [hcur]; exact hj1.id, ?_⟩
      · have h3' : _ ≤ r.config.batch := h3
        omega
      · rw [hl, mem_names, hcur, ← h2]
        exact h1.disOF _ hj2

/-- Whatever happens, neither getting a game nor processing a result raises any exception except for failures of the control file's own functions. -/
theorem C66_no_exception {n lo hi : Nat} {s : Sys} {o : Option Config} {r : Run} (h : Reached n lo hi s o) (hr : s.run = some r) (e : Env) (x : Exc) :
    (r.tuner.getGame r.config e).1 ≠ .error (.py x) ∧
    ∀ p ∈ r.jobs, ∀ res, r.tuner.processResult r.config e p.1 (p.1.result res) ≠ .error (.py x) := by
  obtain ⟨ho, l, cur, hl, hi, hlt⟩ := (reached_inv h).run r hr
  constructor
  · intro hx
    rcases getGame_inv hi e with ⟨t, h1⟩ | ⟨t, h1, _⟩ | ⟨j, t, h1, _⟩ <;> rw [h1] at hx <;> cases hx
  · intro p hp res hx
    obtain ⟨k, hk⟩ := List.mem_iff_getElem?.1 hp
    rcases result_inv hi hk res e with h1 | ⟨t, h1, _⟩ <;> rw [h1] at hx <;> cases hx

/-- And restarting doesn't, either. -/
theorem C66_restart {n lo hi : Nat} {s : Sys} {o : Option Config} (h : Reached n lo hi s o) (c : Config) (e : Env) (hc : c.Ok) (hn : c.samples = n)
    (hb : lo ≤ c.batch ∧ c.batch ≤ hi)
    (hs : ∀ o' sv, o = some o' → s.saved = some sv →
        (o'.batch ≤ c.batch ∧ sv.generation < o'.generations ∧ sv.generation < c.generations) ∨
        (c.generations = o'.generations ∧ c.batch = o'.batch)) :
    startRun c e s.saved = .error .competitionError ∨ ∃ r, startRun c e s.saved = .ok r ∧ r.jobs = [] ∧
      ∀ sv, s.saved = some sv → r.tuner.generation = sv.generation ∧ r.tuner.distribution = sv.distribution ∧
        r.tuner.sampleParameters = sv.sampleParameters ∧ r.tuner.wins = sv.wins := by
  have hinv := reached_inv h
  have hcl : ∃ l, (∀ sv, s.saved = some sv → ∃ cur, SavedInv n lo hi c sv l cur) ∧ (s.saved = none → l = []) := by
    cases hsa : s.saved with
    | none => exact ⟨[], (fun _ h => nomatch h), fun _ => rfl⟩
    | some sv =>
      obtain ⟨o', l, cur, h1, h2, h3, h4⟩ := hinv.saved sv hsa
      exact ⟨l, fun sv' hh => by cases hh; exact ⟨cur, (h3.start h4 (hs o' sv h1 hsa)).1⟩, (fun h => nomatch h)⟩
  obtain ⟨l, h1, h2⟩ := hcl
  rcases start_inv (e := e) hc hn hb.1 hb.2 h1 h2 with hx | ⟨r, hx, _, hj, _⟩
  · exact .inl hx
  · refine .inr ⟨r, hx, hj, fun sv hsv => ?_⟩
    rw [hsv] at hx
    obtain ⟨cur, hsi⟩ := h1 sv hsv
    simp only [startRun] at hx
    unfold Tuner.load at hx
    rw [makeDistribution_ok hsi.params.ne hsi.params.var] at hx
    simp only at hx
    cases hp : prepareCandidates e sv.generation sv.sampleParameters with
    | error y => rw [hp] at hx; cases hx
    | ok cs => rw [hp] at hx; cases hx; exact ⟨rfl, rfl, rfl, rfl⟩

/-- A game counts one point for the candidate if it wins, half a point if nobody does. -/
theorem C66_score {n lo hi : Nat} {s : Sys} {o : Option Config} {r : Run} (h : Reached n lo hi s o) (hr : s.run = some r) (p : Job × Nat)
    (hp : p ∈ r.jobs) (x : Res) :
    (p.1.playerB = p.1.code ∧ p.1.playerW ≠ p.1.code ∧
      gameScore p.1.code (p.1.result x).winningPlayer = score (x.winningColour.map (fun w => decide (w = .b)))) ∨
    (p.1.playerW = p.1.code ∧ p.1.playerB ≠ p.1.code ∧
      gameScore p.1.code (p.1.result x).winningPlayer = score (x.winningColour.map (fun w => decide (w = .w)))) := by
  obtain ⟨ho, l, cur, hl, hi, hlt⟩ := (reached_inv h).run r hr
  exact score_eq hi.ok (hi.jobs p hp) x

/-- What happens when a result is processed.  Either some candidate has games left to play in this generation, and the distribution and the
candidates stay as they are; or all the candidates have played all their games, and the new distribution is calculated from the candidates with
the most points. -/
theorem C65_result {n lo hi : Nat} {s : Sys} {o : Option Config} {r : Run} (h : Reached n lo hi s o) (hr : s.run = some r) (p : Job × Nat)
    (hp : p ∈ r.jobs) (x : Res) (e : Env) (t : Tuner) (ht : r.tuner.processResult r.config e p.1 (p.1.result x) = .ok t) (log : List (Str × Rat))
    (hlog : log = (p.1.gameId, gameScore p.1.code (p.1.result x).winningPlayer) :: s.log) :
    (t.generation = r.tuner.generation ∧ t.distribution = r.tuner.distribution ∧ t.sampleParameters = r.tuner.sampleParameters ∧
      ∃ i < n, ∃ k < r.config.batch, gameName r.tuner.generation i k ∉ log.map (·.1)) ∨
    (t.generation = r.tuner.generation + 1 ∧ (∀ i < n, ∀ k < r.config.batch, gameName r.tuner.generation i k ∈ log.map (·.1)) ∧
      ∃ elite : List Nat, Best ((List.range n).map (points log r.tuner.generation)) (eliteCount r.config) elite ∧
        updateDistribution r.tuner.distribution (elite.map (fun i => r.tuner.sampleParameters.getD i [])) r.config.step = .ok t.distribution) := by
  obtain ⟨ho, l, cur, hl, hi, hlt⟩ := (reached_inv h).run r hr
  obtain ⟨k, hk⟩ := List.mem_iff_getElem?.1 hp
  have hcur := (hi.mem_job hp).2.2.2
  subst hcur
  have hent : log = (List.map Rec.entry (⟨r.tuner.generation, p.1.candidate, p.1.round, gameScore p.1.code (p.1.result x).winningPlayer⟩ :: l)) := by
    rw [hlog, hl, List.map_cons, Rec.entry, (hi.jobs p hp).id]
  rw [hent]
  rcases result_inv hi hk x e with h1 | ⟨t', h1, hinv, haft⟩
  · rw [h1] at ht; cases ht
  · rw [h1] at ht
    cases ht
    obtain ⟨cur', _, hri⟩ := hinv
    cases haft with
    | same a1 a2 a3 a4 a5 =>
      refine .inl ⟨a1, a2, a3, ?_⟩
      obtain ⟨i, hin, hlen⟩ := a5
      refine ⟨i, hin, ?_⟩
      by_contra hcon
      have hsub : List.range r.config.batch ⊆ rounds (⟨r.tuner.generation, p.1.candidate, p.1.round, gameScore p.1.code (p.1.result x).winningPlayer⟩ :: l) r.tuner.generation i := by
        intro a ha
        by_contra hno
        exact hcon ⟨a, List.mem_range.1 ha, fun hm => hno (mem_names.1 hm)⟩
      have := (List.Nodup.subperm List.nodup_range hsub).length_le
      rw [List.length_range] at this
      omega
    | next elite wins a1 a2 a3 a4 a5 a6 =>
      refine .inr ⟨a1, fun i hin b hb => mem_names.2 ((a4 i hin).mem_iff.2 (List.mem_range.2 hb)), elite, ?_, a6⟩
      have : (List.range n).map (points (List.map Rec.entry (⟨r.tuner.generation, p.1.candidate, p.1.round, gameScore p.1.code (p.1.result x).winningPlayer⟩ :: l)) r.tuner.generation) = wins := by
        apply List.ext_getElem?
        intro i
        by_cases hin : i < n
        · rw [a3 i hin, List.getElem?_map, List.getElem?_range hin, Option.map_some, points_eq]
        · rw [List.getElem?_eq_none (by simpa using hin), List.getElem?_eq_none (by omega)]
      rw [this]
      exact a5

/-- If the number of generations is lowered, to a number of generations which have been completed already, the tuner never stops by itself: it
always has another game to play. -/
theorem C66_lowered {n lo hi : Nat} {s : Sys} {o' c : Config} {sv : Saved} (h : Reached n lo hi s (some o')) (hr : s.run = none) (hsv : s.saved = some sv)
    (hun : sv.generation < o'.generations) (hc : c.Ok) (hn : c.samples = n) (hb : o'.batch ≤ c.batch ∧ lo ≤ c.batch ∧ c.batch ≤ hi)
    (hlow : c.generations ≤ sv.generation) (e0 : Env) (ops : List SOp) (hops : ∀ op ∈ ops, ∀ c e, op ≠ .start c e) {r : Run}
    (hrun : (ops.foldl Sys.step (s.step (.start c e0))).run = some r) :
    c.generations ≤ r.tuner.generation ∧
    (r.stopping = false → r.jobs = [] → ∀ e, e.describeOk = true → ∃ j, (r.tuner.getGame r.config e).1 = .ok (some j)) := by
  obtain ⟨o'', l, cur, ho, hl, hsi, hlt⟩ := (reached_inv h).saved sv hsv
  cases ho
  have hcur : cur = sv.generation := by rcases hsi.phase with ⟨a, _⟩ | ⟨a, _⟩ <;> omega
  have hi' := hsi.change (c := c) (.inl ⟨hb.1, hun⟩)
  have key : ∀ (ops : List SOp), (∀ op ∈ ops, ∀ c e, op ≠ .start c e) → ∀ (s' : Sys) (r' : Run) (l' : List Rec) (cur' : Nat), s'.run = some r' →
      r'.config = c → s'.log = l'.map Rec.entry → RunInv n lo hi r' l' cur' → c.generations ≤ cur' → ∀ r, (ops.foldl Sys.step s').run = some r →
      ∃ l'' cur'', RunInv n lo hi r l'' cur'' ∧ r.config = c ∧ c.generations ≤ cur'' := by
    intro ops
    induction ops with
    | nil =>
      intro _ s' r' l' cur' h1 h2 h3 h4 h5 r hr
      rw [List.foldl_nil, h1] at hr
      cases hr
      exact ⟨l', cur', h4, h2, h5⟩
    | cons op ops ih =>
      intro hops s' r' l' cur' h1 h2 h3 h4 h5 r hr
      rw [List.foldl_cons] at hr
      cases step_run h1 h3 h4 op (hops op (by simp)) with
      | down k1 _ _ =>
        exfalso
        have : ∀ (ops : List SOp) (s : Sys), (∀ op ∈ ops, ∀ c e, op ≠ .start c e) → s.run = none → (ops.foldl Sys.step s).run = none := by
          intro ops
          induction ops with
          | nil => intro s _ hs; exact hs
          | cons op ops ih => intro s ho hs; rw [List.foldl_cons, step_none hs op (ho op (by simp))]; exact ih s (fun x hx => ho x (by simp [hx])) hs
        rw [this ops _ (fun x hx => hops x (by simp [hx])) k1] at hr
        cases hr
      | on r'' l'' cur'' k1 k2 k3 k4 k5 _ =>
        refine ih (fun x hx => hops x (by simp [hx])) _ r'' l'' cur'' k1 (by rw [k2, h2]) k3 k4 ?_ r hr
        rw [h2] at k5
        omega
  have hst : ∃ r' cur', (s.step (.start c e0)).run = some r' ∧ r'.config = c ∧ (s.step (.start c e0)).log = l.map Rec.entry ∧ RunInv n lo hi r' l cur' ∧ c.generations ≤ cur' := by
    have hstart := start_inv (n := n) (lo := lo) (hi := hi) (c := c) (e := e0) (sv := s.saved) (l := l) hc hn hb.2.1 hb.2.2
      (fun sv' hx => by rw [hsv] at hx; cases hx; exact ⟨cur, hi'⟩) (fun hx => by rw [hsv] at hx; cases hx)
    rcases hstart with hx | ⟨r', hx, hrc, _, cur', hri, _, hcur'⟩
    · exfalso
      have hnone : (s.step (.start c e0)).run = none := by simp only [Sys.step, hr, hx]
      have : ∀ (ops : List SOp) (s : Sys), (∀ op ∈ ops, ∀ c e, op ≠ .start c e) → s.run = none → (ops.foldl Sys.step s).run = none := by
        intro ops
        induction ops with
        | nil => intro s _ hs; exact hs
        | cons op ops ih => intro s ho hs; rw [List.foldl_cons, step_none hs op (ho op (by simp))]; exact ih s (fun x hx => ho x (by simp [hx])) hs
      rw [this ops _ hops hnone] at hrun
      cases hrun
    · refine ⟨r', cur', by simp only [Sys.step, hr, hx], hrc, by simp only [Sys.step, hr, hx, hl], hri, ?_⟩
      have h3 := (hcur' sv hsv).1
      rcases h3.phase with ⟨a, _⟩ | ⟨a, b, hx'⟩
      · omega
      · rcases hi'.phase with ⟨_, i, hin, hy⟩ | ⟨a', _⟩
        · exact absurd (hx' i hin) (by omega)
        · omega
  obtain ⟨r', cur', h1, h2, h3, h4, h5⟩ := hst
  obtain ⟨l'', cur'', hri, hrc, hge⟩ := key ops hops _ r' l cur' h1 h2 h3 h4 h5 r hrun
  have hph : cur'' = r.tuner.generation ∧ ∃ i < n, (allocOf r.tuner.scheduler i).fixed < (r.config.batch : Int) := by
    rcases hri.phase with hp | ⟨a, b, _⟩
    · exact hp
    · rw [hrc] at b; omega
  refine ⟨by omega, fun hst hj e hde => ?_⟩
  rcases getGame_inv hri e with ⟨t, hx⟩ | ⟨t, hx, _, hall⟩ | ⟨j, t, hx, _⟩
  · exfalso
    unfold Tuner.getGame at hx
    split at hx
    · cases hx
    · split at hx
      · rw [hde] at hx; cases hx
      · cases hx
  · exfalso
    obtain ⟨_, i, hin, hf⟩ := hph
    have h1 := hall i hin
    obtain ⟨evs, h2, _⟩ := hri.core.alloc i
    have h3 := h2.issuedN
    have h4 := h2.fixedN
    cases hos : (allocOf r.tuner.scheduler i).outstanding with
    | nil => rw [hos] at h3; simp at h3; omega
    | cons t ts =>
      have := (hri.out i t).2 hst (by rw [hos]; simp)
      rw [hj] at this
      simp at this
  · exact ⟨j, by rw [hx]⟩

theorem processResult_seen {c : Config} {e : Env} {j : Job} {g : GameResult} {t t' : Tuner} (h : t.processResult c e j g = .ok t') : t'.seenSuccess = true := by
  have hreset : ∀ {u u' : Tuner}, u.reset c e = .ok u' → u'.seenSuccess = u.seenSuccess := by
    intro u u' hu
    simp only [Tuner.reset] at hu
    split at hu
    · cases hu
    · cases hu; rfl
  have hfin : ∀ {u u' : Tuner}, u.finishGeneration c e = .ok u' → u'.seenSuccess = u.seenSuccess := by
    intro u u' hu
    unfold Tuner.finishGeneration at hu
    split at hu
    · cases hu
    · split at hu
      · cases hu
      · split at hu
        · cases hu
        · cases hu; rfl
  unfold Tuner.processResult at h
  split at h
  · cases h
  · split at h
    · cases h
    · split at h
      · cases h
      · unfold Tuner.endOfResult at h
        split at h
        · split at h
          · cases h
          · rename_i hf
            have := hfin hf
            simp only at h
            split at h
            · rw [hreset h]; exact this
            · cases h; exact this
        · cases h; rfl

theorem getGame_seen (c : Config) (e : Env) (t : Tuner) : (t.getGame c e).2.seenSuccess = t.seenSuccess := by
  unfold Tuner.getGame
  split
  · rfl
  · split
    · split <;> rfl
    · rfl

theorem startRun_seen {c : Config} {e : Env} {sv : Option Saved} {r : Run} (h : startRun c e sv = .ok r) : r.tuner.seenSuccess = false := by
  cases sv with
  | none =>
    simp only [startRun, Tuner.clean, Tuner.reset] at h
    cases hp : prepareCandidates e 0 ((List.range c.samples).map (getSample e c.initial)) with
    | error x => rw [hp] at h; cases h
    | ok cs => rw [hp] at h; cases h; rfl
  | some s =>
    simp only [startRun, Tuner.load] at h
    cases hm : makeDistribution s.distribution with
    | error x => rw [hm] at h; cases h
    | ok d =>
      rw [hm] at h
      simp only at h
      cases hp : prepareCandidates e s.generation s.sampleParameters with
      | error x => rw [hp] at h; cases h
      | ok cs => rw [hp] at h; cases h; rfl

theorem write_cases (s : Sys) (r r' : Run) (d : Bool) (h : (s.writeStatus r d).run = some r') : r' = r ∧ (s.writeStatus r d).log = s.log := by
  unfold Sys.writeStatus at h ⊢
  cases d with
  | false => cases h
  | true => cases h; exact ⟨rfl, rfl⟩

theorem step_seen {s : Sys} {base : Nat} (h : ∀ r, s.run = some r → base ≤ s.log.length ∧ (r.tuner.seenSuccess = true ↔ base < s.log.length)) (op : SOp)
    (hop : ∀ c e, op ≠ .start c e) :
    ∀ r, (s.step op).run = some r → base ≤ (s.step op).log.length ∧ (r.tuner.seenSuccess = true ↔ base < (s.step op).log.length) := by
  intro r' hr'
  cases hr : s.run with
  | none => rw [step_none hr op hop] at hr' ⊢; exact h r' hr'
  | some r =>
    obtain ⟨hb, hsn⟩ := h r hr
    cases op with
    | start c e => exact absurd rfl (hop c e)
    | down => cases hr'
    | stop =>
      simp only [Sys.step, hr] at hr' ⊢
      cases hr'
      exact ⟨hb, hsn⟩
    | getGame e =>
      simp only [Sys.step, hr] at hr' ⊢
      by_cases hst : r.stopping = true
      · rw [if_pos hst] at hr' ⊢
        exact h r' hr'
      · rw [if_neg hst] at hr' ⊢
        have hg := getGame_seen r.config e r.tuner
        cases hx : r.tuner.getGame r.config e with
        | mk y t =>
          rw [hx] at hr' hg
          cases y with
          | error y => cases hr'
          | ok y =>
            cases y with
            | none => cases hr'; exact ⟨hb, by rw [← hsn, ← hg]⟩
            | some j => cases hr'; exact ⟨hb, by rw [← hsn, ← hg]⟩
    | result k x e diskOk =>
      simp only [Sys.step, hr] at hr' ⊢
      cases hk : r.jobs[k]? with
      | none => rw [hk] at hr'; exact h r' hr'
      | some j =>
        rw [hk] at hr'
        simp only at hr' ⊢
        cases hx : r.tuner.processResult r.config e j.1 (j.1.result x) with
        | error y => rw [hx] at hr'; cases hr'
        | ok t =>
          rw [hx] at hr'
          simp only at hr' ⊢
          obtain ⟨h1, h2⟩ := write_cases _ _ _ _ hr'
          subst h1
          rw [h2]
          have := processResult_seen hx
          simp only [List.length_cons]
          exact ⟨by omega, by simp only [this, true_iff]; omega⟩
    | error k diskOk =>
      simp only [Sys.step, hr] at hr' ⊢
      cases hk : r.jobs[k]? with
      | none => rw [hk] at hr'; exact h r' hr'
      | some j =>
        rw [hk] at hr'
        simp only at hr' ⊢
        split at hr'
        · rename_i hif
          rw [if_pos hif]
          obtain ⟨h1, h2⟩ := write_cases _ _ _ _ hr'
          subst h1
          rw [h2]
          exact ⟨hb, hsn⟩
        · rename_i hif
          rw [if_neg hif]
          obtain ⟨h1, h2⟩ := write_cases _ _ _ _ hr'
          subst h1
          rw [h2]
          exact ⟨hb, hsn⟩

/-- A game which fails is played again once, if there has been a result in this run; otherwise, or if it fails again, the competition stops. -/
theorem C66_errors {s : Sys} (hs : s.run = none) (c : Config) (e : Env) (ops : List SOp) (hops : ∀ op ∈ ops, ∀ c e, op ≠ .start c e) {r : Run}
    (hr : (ops.foldl Sys.step (s.step (.start c e))).run = some r) (failures : Nat) :
    r.tuner.processError failures =
      if s.savedLog.length < (ops.foldl Sys.step (s.step (.start c e))).log.length ∧ failures = 0 then (false, true) else (true, false) := by
  have hstart : ∀ r, (s.step (.start c e)).run = some r → s.savedLog.length ≤ (s.step (.start c e)).log.length ∧
      (r.tuner.seenSuccess = true ↔ s.savedLog.length < (s.step (.start c e)).log.length) := by
    intro r hr
    simp only [Sys.step, hs] at hr ⊢
    cases hx : startRun c e s.saved with
    | error y => rw [hx] at hr; simp only at hr; rw [hs] at hr; cases hr
    | ok r' =>
      rw [hx] at hr
      cases hr
      simp only
      rw [startRun_seen hx]
      simp
  have key : ∀ (ops : List SOp), (∀ op ∈ ops, ∀ c e, op ≠ .start c e) → ∀ s' : Sys,
      (∀ r, s'.run = some r → s.savedLog.length ≤ s'.log.length ∧ (r.tuner.seenSuccess = true ↔ s.savedLog.length < s'.log.length)) →
      ∀ r, (ops.foldl Sys.step s').run = some r → (r.tuner.seenSuccess = true ↔ s.savedLog.length < (ops.foldl Sys.step s').log.length) := by
    intro ops
    induction ops with
    | nil => intro _ s' h r hr; exact (h r hr).2
    | cons op ops ih =>
      intro ho s' h r hr
      exact ih (fun x hx => ho x (by simp [hx])) _ (step_seen h op (ho op (by simp))) r hr
  have := key ops hops _ hstart r hr
  unfold Tuner.processError
  revert this
  generalize (ops.foldl Sys.step (s.step (.start c e))).log.length = m
  intro this
  by_cases hm : s.savedLog.length < m <;> cases hss : r.tuner.seenSuccess <;> cases failures <;> simp_all

/-! ### A history -/

namespace Example

def config (batch generations : Nat) : Config := ⟨[(0, 1)], 2, batch, generations, 1 / 2, 1 / 2, none, ['o', 'p']⟩

/-- Candidate `i` has parameter `i`. -/
def env : Env := ⟨fun i _ => i, fun _ => true, true, .b⟩

def blackWin : Res := ⟨some .b, false, false, ['B', '+', 'R'], none⟩

def jigo : Res := ⟨none, true, false, ['0'], none⟩

theorem config_ok (b g : Nat) (hb : 1 ≤ b) (hg : 1 ≤ g) : (config b g).Ok :=
  ⟨show 1 ≤ 2 by decide, hb, hg, show (0 : Rat) < 1 / 2 ∧ (1 / 2 : Rat) < 1 by decide +kernel, show (0 : Rat) < 1 / 2 ∧ (1 / 2 : Rat) < 1 by decide +kernel,
    show ([(0, 1)] : Dist) ≠ [] ∧ ∀ p ∈ ([(0, 1)] : Dist), 0 ≤ p.2 by decide +kernel, show '#' ∉ ['o', 'p'] by decide⟩

/-- One generation with one game each (in which the first candidate has half a point, and the second has one, after one failure); and a second
generation, in which one game is lost in a crash, after which the batch size is raised; so then each has two games. -/
def ops : List SOp :=
  [.start (config 1 2) env, .getGame env, .getGame env, .result 0 blackWin env true, .error 0 true, .result 0 jigo env true,
   .getGame env, .getGame env, .result 1 blackWin env true, .down]

def ops2 : List SOp :=
  [.getGame env, .getGame env, .getGame env, .result 1 jigo env true, .result 0 blackWin env true, .result 0 blackWin env true]

def middle : Sys := Sys.after ops

def final : Sys := ops2.foldl Sys.step (middle.step (.start (config 2 2) env))

theorem reached_steps {n lo hi : Nat} {s : Sys} {o : Option Config} (h : Reached n lo hi s o) (l : List SOp) (hl : ∀ op ∈ l, ∀ c e, op ≠ .start c e) :
    Reached n lo hi (l.foldl Sys.step s) o := by
  induction l generalizing s with
  | nil => exact h
  | cons a l ih => exact ih (h.step a (hl a (by simp))) (fun op ho => hl op (by simp [ho]))

theorem reached_middle : Reached 2 1 2 middle (some (config 1 2)) := by
  have h0 : Reached 2 1 2 _ _ := Reached.start (config 1 2) env Reached.init rfl (config_ok 1 2 (by decide) (by decide)) rfl (by decide)
    (fun _ _ h => nomatch h)
  exact reached_steps h0 ops.tail (by
    intro op hop c e heq
    subst heq
    simp [ops] at hop)

theorem reached_final : Reached 2 1 2 final (some (config 2 2)) := by
  refine reached_steps (Reached.start (config 2 2) env reached_middle (by decide +kernel) (config_ok 2 2 (by decide) (by decide)) rfl (by decide) ?_) ops2 ?_
  · intro o' sv ho hs
    cases ho
    left
    have hg : middle.saved.map (·.generation) = some 1 := by decide +kernel
    rw [hs] at hg
    have : sv.generation = 1 := by simpa using hg
    rw [this]
    decide
  · intro op hop c e heq
    subst heq
    simp [ops2] at hop

end Example

open Example in
/-- The history: the names of the games (latest first) and the candidates' scores; and the tuner has finished, with the distribution calculated
from the best candidate, twice. -/
theorem C66_witness :
    Reached 2 1 2 middle (some (config 1 2)) ∧ Reached 2 1 2 final (some (config 2 2)) ∧
    final.log.map (fun p => (String.ofList p.1, p.2)) =
      [("g1#1r0", 1), ("g1#1r1", 1), ("g1#0r1", 1 / 2), ("g1#0r0", 1), ("g0#0r0", 1 / 2), ("g0#1r0", 1)] ∧
    final.run.map (fun r => (r.tuner.generation, r.tuner.wins, r.jobs.length, r.tuner.distribution)) =
      some (2, [3 / 2, 2], 0, [(3 / 4, 1 / 4)]) := by
  refine ⟨reached_middle, reached_final, by decide +kernel, by decide +kernel⟩

open Example in
/-- Changes to the settings which don't work.  In each case the second run starts from a status file of an event which the first run left: in the
first case in its second generation; in the others finished.  (1) With the number of generations lowered to 1, another generation is played, and
then a third one is started.  (2) If the number of generations is raised once the event is finished, there are no games.  (3) If the batch size is
raised once the event is finished, games are played, and then a further generation is started.  (4) If the batch size is lowered in the middle of a
generation so that no games are left, there are no games, though the event isn't finished. -/
theorem C66_changes :
    ((([.start (config 1 3) env, .getGame env, .getGame env, .result 0 jigo env true, .result 0 jigo env true, .down,
        .start (config 1 1) env, .getGame env, .getGame env, .result 0 jigo env true, .result 0 jigo env true, .getGame env] : List SOp).foldl Sys.step
        ⟨none, none, [], []⟩).run.map (fun r => (r.tuner.generation, r.jobs.length))) = some (2, 1) ∧
    ((([.start (config 1 1) env, .getGame env, .getGame env, .result 0 jigo env true, .result 0 jigo env true, .down,
        .start (config 1 2) env, .getGame env] : List SOp).foldl Sys.step
        ⟨none, none, [], []⟩).run.map (fun r => (r.tuner.generation, r.jobs.length))) = some (1, 0) ∧
    ((([.start (config 1 1) env, .getGame env, .getGame env, .result 0 jigo env true, .result 0 jigo env true, .down,
        .start (config 2 1) env, .getGame env, .getGame env, .result 0 jigo env true, .result 0 jigo env true, .getGame env] : List SOp).foldl Sys.step
        ⟨none, none, [], []⟩).run.map (fun r => (r.tuner.generation, r.jobs.length))) = some (2, 1) ∧
    ((([.start (config 2 1) env, .getGame env, .getGame env, .result 0 jigo env true, .result 0 jigo env true, .down,
        .start (config 1 1) env, .getGame env] : List SOp).foldl Sys.step
        ⟨none, none, [], []⟩).run.map (fun r => (r.tuner.generation, r.jobs.length))) = some (0, 0) := by
  refine ⟨by decide +kernel, by decide +kernel, by decide +kernel, by decide +kernel⟩

end Gomill.Cem
