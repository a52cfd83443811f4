import Verif.Spec.CemReports
import Verif.Props.Cem
/-
C87: the CEM tuner's reports and history.
-/
namespace Gomill.Cem
open Py Sched SchedSpec CemSpec

variable {ε : Type}

theorem formatDistribution_spec (S : Show ε) (d : Dist) :
    (∀ s, formatDistribution S d = .ok s → DistText S d s) ∧
    (∀ e, formatDistribution S d = .error e → ∃ e', S.params (d.map (·.1)) = .error e' ∧ e = .fmt e') := by
  unfold formatDistribution showParams means
  unfold DistText
  cases hp : S.params (d.map (·.1)) with
  | error e' =>
    refine ⟨fun s hs => (by simp only at hs; cases hs), fun e he => ?_⟩
    simp only at he
    injection he with he
    exact ⟨e', rfl, he.symm⟩
  | ok s =>
    refine ⟨fun t ht => ?_, fun e he => (by simp only at he; cases he)⟩
    simp only at ht
    injection ht with ht
    exact ⟨s, rfl, ht.symm⟩

/-- C87: the screen report, in any state of any history of runs. -/
theorem C87_screen (S : Show ε) {n lo hi : Nat} {s : Sys} {o : Option Config} {r : Run} (h : Reached n lo hi s o) (hr : s.run = some r) :
    (∀ lines, screenReport S r.config r.tuner = .ok lines → ScreenText S n r.tuner.generation r.config.generations r.tuner.distribution s.log lines) ∧
    (∀ e, screenReport S r.config r.tuner = .error e → ∃ e', S.params (r.tuner.distribution.map (·.1)) = .error e' ∧ e = .fmt e') := by
  obtain ⟨h1, h2⟩ := formatDistribution_spec S r.tuner.distribution
  obtain ⟨w1, w2, w3, w4⟩ := C66_wins h hr
  unfold screenReport
  cases hd : formatDistribution S r.tuner.distribution with
  | error e =>
    refine ⟨fun l hl => (by simp only at hl; cases hl), fun e' he' => ?_⟩
    simp only at he'
    injection he' with he'
    rw [← he']
    exact h2 e hd
  | ok d =>
    refine ⟨fun l hl => ?_, fun e' he' => (by simp only at he'; cases he')⟩
    simp only at hl
    injection hl with hl
    refine ⟨d, h1 d hd, ?_⟩
    rw [← hl]
    have hw : r.tuner.wins = (List.range n).map (fun i => points s.log (if r.tuner.generation = r.config.generations then r.config.generations - 1 else r.tuner.generation) i) := by
      apply List.ext_getElem?
      intro i
      by_cases hin : i < n
      · rw [List.getElem?_map, List.getElem?_range hin, Option.map_some]
        by_cases hg : r.tuner.generation = r.config.generations
        · rw [if_pos hg]; exact w4 hg i hin
        · rw [if_neg hg]; exact w3 (by omega) i hin
      · rw [List.getElem?_eq_none (by omega), List.getElem?_eq_none (by simpa using hin)]
    rw [hw, List.map_map]
    rfl

/-- C87: the short report (which is also the full report). -/
theorem C87_short (S : Show ε) {n lo hi : Nat} {s : Sys} {o : Option Config} {r : Run} (h : Reached n lo hi s o) (hr : s.run = some r) (hd : Heading) :
    (∀ lines, shortReport S r.config hd r.tuner = .ok lines → ∃ screen, ScreenText S n r.tuner.generation r.config.generations r.tuner.distribution s.log screen ∧
      lines = ["CEM tuning event: ".toList ++ hd.code] ++ (hd.description.toList.filter (fun s => s ≠ [])) ++ ["board size: ".toList ++ hd.boardSize, "komi: ".toList ++ hd.komi] ++ screen) ∧
    (∀ e, shortReport S r.config hd r.tuner = .error e → ∃ e', S.params (r.tuner.distribution.map (·.1)) = .error e' ∧ e = .fmt e') := by
  obtain ⟨h1, h2⟩ := C87_screen S h hr
  have hst : staticDescription hd =
      ["CEM tuning event: ".toList ++ hd.code] ++ (hd.description.toList.filter (fun s => s ≠ [])) ++ ["board size: ".toList ++ hd.boardSize, "komi: ".toList ++ hd.komi] := by
    unfold staticDescription
    cases hd.description with
    | none => rfl
    | some d =>
      cases d with
      | nil => rfl
      | cons a d => rfl
  unfold shortReport
  cases hs : screenReport S r.config r.tuner with
  | error e =>
    refine ⟨fun l hl => (by simp only at hl; cases hl), fun e' he' => ?_⟩
    simp only at he'
    injection he' with he'
    rw [← he']
    exact h2 e hs
  | ok screen =>
    refine ⟨fun l hl => ?_, fun e' he' => (by simp only at he'; cases he')⟩
    simp only at hl
    injection hl with hl
    exact ⟨screen, h1 screen hs, by rw [← hl, hst]⟩

/-- C87: the report made from the status file: the same, for the games whose results were saved. -/
theorem C87_saved (S : Show ε) {n lo hi : Nat} {s : Sys} {o : Option Config} {r : Run} (h : Reached n lo hi s o) (hr : s.run = none) (c : Config) (e : Env) (hc : c.Ok) (hn : c.samples = n)
    (hb : lo ≤ c.batch ∧ c.batch ≤ hi)
    (hs : ∀ o' sv, o = some o' → s.saved = some sv →
      (o'.batch ≤ c.batch ∧ sv.generation < o'.generations ∧ sv.generation < c.generations) ∨ (c.generations = o'.generations ∧ c.batch = o'.batch))
    (hrun : startRun c e s.saved = .ok r) :
    (∀ lines, screenReport S c r.tuner = .ok lines → ScreenText S n r.tuner.generation c.generations r.tuner.distribution s.savedLog lines) ∧
    (∀ e, screenReport S c r.tuner = .error e → ∃ e', S.params (r.tuner.distribution.map (·.1)) = .error e' ∧ e = .fmt e') := by
  have hstep : s.step (.start c e) = { s with run := some r, log := s.savedLog } := by
    simp only [Sys.step, hr, hrun]
  have hre := Reached.start c e h hr hc hn hb hs
  rw [hstep] at hre
  have hcr : r.config = c := by
    unfold startRun at hrun
    split at hrun
    · cases hrun
    · injection hrun with hrun; rw [← hrun]
  have := C87_screen S hre (r := r) rfl
  rw [hcr] at this
  exact this

/-- C87: reading the status back doesn't change what the report says. -/
theorem C87_reload (S : Show ε) (c : Config) (e : Env) (t t' : Tuner) (h : Tuner.load c e t.save = .ok t') : screenReport S c t' = screenReport S c t := by
  unfold Tuner.load at h
  cases hm : makeDistribution t.save.distribution with
  | error x => rw [hm] at h; cases h
  | ok d =>
    have hd : d = t.distribution := by
      unfold makeDistribution at hm
      split at hm
      · cases hm
      · split at hm
        · cases hm
        · injection hm with hm; exact hm.symm
    rw [hm] at h
    simp only at h
    cases hp : prepareCandidates e t.save.generation t.save.sampleParameters with
    | error x => rw [hp] at h; cases h
    | ok cs =>
      rw [hp] at h
      simp only at h
      injection h with h
      rw [← h, hd]
      rfl

/-! ### The history -/

theorem resultLines_spec (S : Show ε) {n : Nat} (t : Tuner) (count : Nat) (elite : List Nat) (pts : Nat → Rat) :
    ∀ (l : List (Rat × Nat)) (k : Nat), (∀ p ∈ l, p.2 < n ∧ pts p.2 = p.1 ∧ 0 ≤ p.1) → t.sampleParameters.length = n →
      (∀ (j : Nat) p, l[j]? = some p → (p.2 ∈ elite ↔ k + j < count)) →
      (∀ lines, resultLines S t count k l = .ok lines → List.Forall₂ (CandidateLine S t.sampleParameters pts elite t.generation) (l.map (·.2)) lines) ∧
      (∀ e, resultLines S t count k l = .error e → ∃ ps ∈ t.sampleParameters, ∃ e', S.params ps = .error e' ∧ e = .fmt e')
  | [], k, _, _, _ => ⟨fun lines hl => by injection hl with hl; rw [← hl]; exact .nil, fun e he => nomatch he⟩
  | p :: l, k, hp, hlen, hel => by
    obtain ⟨i1, i2⟩ := resultLines_spec S t count elite pts l (k + 1) (fun q hq => hp q (List.mem_cons_of_mem _ hq)) hlen (fun j q hq => by
      have := hel (j + 1) q (by simpa using hq)
      rw [this]; omega)
    obtain ⟨a1, a2, a3⟩ := hp p List.mem_cons_self
    have hlt : p.2 < t.sampleParameters.length := by omega
    have he0 := hel 0 p rfl
    rw [Nat.add_zero] at he0
    unfold resultLines candidateLine showParams
    rw [List.getElem?_eq_getElem hlt]
    simp only
    cases hs : S.params t.sampleParameters[p.2] with
    | error e' =>
      refine ⟨fun l hl => (by simp only at hl; cases hl), fun e he => ?_⟩
      simp only at he
      injection he with he
      exact ⟨_, List.getElem_mem hlt, e', hs, he.symm⟩
    | ok s =>
      simp only
      cases hr : resultLines S t count (k + 1) l with
      | error e =>
        refine ⟨fun l hl => (by simp only at hl; cases hl), fun e' he' => ?_⟩
        simp only at he'
        injection he' with he'
        rw [← he']
        exact i2 e hr
      | ok rest =>
        refine ⟨fun lines hl => ?_, fun e' he' => (by simp only at he'; cases he')⟩
        simp only at hl
        injection hl with hl
        rw [← hl]
        refine .cons ⟨_, s, List.getElem?_eq_getElem hlt, hs, ?_⟩ (i1 rest hr)
        have ht : Mcts.truncate p.1 = (pts p.2).floor := by rw [a2]; unfold Mcts.truncate; rw [if_pos a3]
        rw [ht, candidateCode_eq]
        by_cases hk : k < count
        · rw [if_pos hk, if_pos (he0.2 hk)]
        · rw [if_neg hk, if_neg (fun hc => hk (he0.1 hc))]

theorem gameScore_nonneg (code : Str) (w : Option Str) : 0 ≤ gameScore code w := by
  unfold gameScore
  split
  · decide +kernel
  · split <;> decide +kernel

theorem write_log (s : Sys) (r : Run) (d : Bool) : (s.writeStatus r d).log = s.log ∧ ((s.writeStatus r d).savedLog = s.log ∨ (s.writeStatus r d).savedLog = s.savedLog) := by
  unfold Sys.writeStatus
  cases d
  · exact ⟨rfl, .inr rfl⟩
  · exact ⟨rfl, .inl rfl⟩

theorem step_nonneg {s : Sys} (h : (∀ p ∈ s.log, 0 ≤ p.2) ∧ ∀ p ∈ s.savedLog, 0 ≤ p.2) (op : SOp) : (∀ p ∈ (s.step op).log, 0 ≤ p.2) ∧ ∀ p ∈ (s.step op).savedLog, 0 ≤ p.2 := by
  have hw : ∀ (s' : Sys) (r : Run) (d : Bool), ((∀ p ∈ s'.log, 0 ≤ p.2) ∧ ∀ p ∈ s'.savedLog, 0 ≤ p.2) →
      (∀ p ∈ (s'.writeStatus r d).log, 0 ≤ p.2) ∧ ∀ p ∈ (s'.writeStatus r d).savedLog, 0 ≤ p.2 := by
    intro s' r d hs'
    obtain ⟨h1, h2⟩ := write_log s' r d
    refine ⟨by rw [h1]; exact hs'.1, ?_⟩
    rcases h2 with h2 | h2
    · rw [h2]; exact hs'.1
    · rw [h2]; exact hs'.2
  cases op with
  | start c e =>
    simp only [Sys.step]
    cases s.run with
    | some r => exact h
    | none =>
      simp only
      cases startRun c e s.saved with
      | error x => exact h
      | ok r => exact ⟨h.2, h.2⟩
  | down => exact h
  | stop =>
    simp only [Sys.step]
    cases s.run with
    | none => exact h
    | some r => exact h
  | getGame e =>
    simp only [Sys.step]
    cases s.run with
    | none => exact h
    | some r =>
      simp only
      split
      · exact h
      · split <;> exact h
  | result k x e d =>
    simp only [Sys.step]
    cases s.run with
    | none => exact h
    | some r =>
      simp only
      cases r.jobs[k]? with
      | none => exact h
      | some j =>
        simp only
        cases r.tuner.processResult r.config e j.1 (j.1.result x) with
        | error _ => exact h
        | ok t =>
          simp only
          refine hw _ _ _ ⟨fun p hp => ?_, h.2⟩
          rcases List.mem_cons.1 hp with rfl | hp
          · exact gameScore_nonneg _ _
          · exact h.1 p hp
  | error k d =>
    simp only [Sys.step]
    cases s.run with
    | none => exact h
    | some r =>
      simp only
      cases r.jobs[k]? with
      | none => exact h
      | some j =>
        simp only
        split
        · exact hw _ _ _ h
        · exact hw _ _ _ h

theorem reached_nonneg {n lo hi : Nat} {s : Sys} {o : Option Config} (h : Reached n lo hi s o) : (∀ p ∈ s.log, 0 ≤ p.2) ∧ ∀ p ∈ s.savedLog, 0 ≤ p.2 := by
  induction h with
  | init => exact ⟨(fun _ h => nomatch h), (fun _ h => nomatch h)⟩
  | start c e h hr hc hn hb hs ih => exact step_nonneg ih _
  | step op h hop ih => exact step_nonneg ih op

theorem points_nonneg {log : List (Str × Rat)} (h : ∀ p ∈ log, 0 ≤ p.2) (g i : Nat) : 0 ≤ points log g i := by
  unfold points
  refine sum_nonneg' (fun x hx => ?_)
  obtain ⟨p, hp, rfl⟩ := List.mem_map.1 hx
  exact h p (List.mem_of_mem_filter hp)

theorem finishGeneration_ok {c : Config} {e : Env} {t t' : Tuner} (hlen : ∀ p ∈ sorter t.wins, p.2 < t.sampleParameters.length) (h : t.finishGeneration c e = .ok t') :
    ∃ d, t' = { t with distribution := d } ∧
      updateDistribution t.distribution ((((sorter t.wins).take (eliteCount c)).map (·.2)).map (fun i => t.sampleParameters.getD i [])) c.step = .ok d := by
  unfold Tuner.finishGeneration at h
  cases hd : e.describeOk with
  | false => rw [hd] at h; cases h
  | true =>
    rw [hd] at h
    simp only [Bool.not_true, Bool.false_eq_true, if_false] at h
    rw [eliteSamples_ok (fun p hp => hlen p (List.mem_of_mem_take hp))] at h
    simp only at h
    cases hu : updateDistribution t.distribution (((sorter t.wins).take (eliteCount c)).map (fun p => t.sampleParameters.getD p.2 [])) c.step with
    | error x => rw [hu] at h; cases h
    | ok d =>
      rw [hu] at h
      simp only at h
      injection h with h
      refine ⟨d, h.symm, ?_⟩
      rw [List.map_map]
      exact hu

/-- C87: what's written in the history when a result is processed.  Nothing, if the generation goes on; when it's completed, all the candidates with their parameters and points, where a star
marks the candidates which the new distribution is calculated from. -/
theorem C87_history (S : Show ε) {n lo hi : Nat} {s : Sys} {o : Option Config} {r : Run} (h : Reached n lo hi s o) (hr : s.run = some r) (p : Job × Nat)
    (hp : p ∈ r.jobs) (x : Res) (e : Env) (t : Tuner) (ht : r.tuner.processResult r.config e p.1 (p.1.result x) = .ok t) (log : List (Str × Rat))
    (hlog : log = (p.1.gameId, gameScore p.1.code (p.1.result x).winningPlayer) :: s.log) :
    (t.generation = r.tuner.generation ∧ resultHistory S r.config p.1 (p.1.result x) r.tuner = none) ∨
    (t.generation = r.tuner.generation + 1 ∧
      ∃ elite : List Nat, Best ((List.range n).map (points log r.tuner.generation)) (eliteCount r.config) elite ∧
        updateDistribution r.tuner.distribution (elite.map (fun i => r.tuner.sampleParameters.getD i [])) r.config.step = .ok t.distribution ∧
        ∃ result, resultHistory S r.config p.1 (p.1.result x) r.tuner = some result ∧
          (∀ texts, result = .ok texts →
            HistoryText S n r.tuner.generation r.tuner.distribution r.tuner.sampleParameters (points log r.tuner.generation) elite texts) ∧
          ∀ x, result = .error x → ∃ ps e', (ps = r.tuner.distribution.map (·.1) ∨ ps ∈ r.tuner.sampleParameters) ∧ S.params ps = .error e' ∧ x = .fmt e') := by
  have hnn : ∀ q ∈ log, 0 ≤ q.2 := by
    intro q hq
    rw [hlog] at hq
    rcases List.mem_cons.1 hq with rfl | hq
    · exact gameScore_nonneg _ _
    · exact (reached_nonneg h).1 q hq
  obtain ⟨ho, l, cur, hl, hi, hlt⟩ := (reached_inv h).run r hr
  obtain ⟨hj, hout, hcl, hcur⟩ := hi.mem_job hp
  subst hcur
  have hent : log = (List.map Rec.entry (⟨r.tuner.generation, p.1.candidate, p.1.round, gameScore p.1.code (p.1.result x).winningPlayer⟩ :: l)) := by
    rw [hlog, hl, List.map_cons, Rec.entry, (hi.jobs p hp).id]
  clear hlog
  have hpl : ¬ (p.1.code ≠ (p.1.result x).playerB ∧ p.1.code ≠ (p.1.result x).playerW) := by
    show ¬ (p.1.code ≠ p.1.playerB ∧ p.1.code ≠ p.1.playerW)
    rintro ⟨h1, h2⟩
    rcases hj.players with ⟨h3, _⟩ | ⟨_, h3⟩
    · exact h1 h3.symm
    · exact h2 h3.symm
  unfold Tuner.processResult at ht
  unfold resultHistory
  generalize gameScore p.1.code (p.1.result x).winningPlayer = q at *
  obtain ⟨sch, hfix, hlim, hout', hcore⟩ := hi.core.fix hi.limits hout q
  have hmemw : r.tuner.wins[p.1.candidate]? = some (pts l r.tuner.generation p.1.candidate) := hi.core.wins _ hcl
  have hc := hcore _ hmemw
  rw [hfix] at ht ⊢
  simp only [if_neg hpl, hmemw] at ht ⊢
  have hpts : ∀ i, pts (⟨r.tuner.generation, p.1.candidate, p.1.round, q⟩ :: l) r.tuner.generation i = points log r.tuner.generation i := by
    intro i; rw [hent, points_eq]
  have hwin : ∀ i < n, (r.tuner.wins.set p.1.candidate (pts l r.tuner.generation p.1.candidate + q))[i]? = some (points log r.tuner.generation i) := by
    intro i hin; rw [hc.wins i hin, hpts]
  have hwl := hc.winsLen
  clear hcore hent hout' hpts
  generalize r.tuner.wins.set p.1.candidate (pts l r.tuner.generation p.1.candidate + q) = wins at *
  unfold Tuner.endOfResult at ht
  by_cases haf : sch.allFixed = true
  · right
    simp only [haf, if_true] at ht ⊢
    have hsort : ∀ p ∈ sorter wins, p.2 < n ∧ points log r.tuner.generation p.2 = p.1 ∧ 0 ≤ p.1 := by
      intro p hp
      have h1 := mem_sorter.1 hp
      have h2 : p.2 < n := by rw [← hwl]; exact (List.getElem?_eq_some_iff.1 h1).1
      have h3 := (hwin p.2 h2).symm.trans h1
      injection h3 with h3
      exact ⟨h2, h3, by rw [← h3]; exact points_nonneg hnn _ _⟩
    cases hf : Tuner.finishGeneration r.config e { r.tuner with seenSuccess := true, scheduler := sch, wins := wins } with
    | error y => rw [hf] at ht; cases ht
    | ok t1 =>
      obtain ⟨d, hd1, hd2⟩ := finishGeneration_ok (t := { r.tuner with seenSuccess := true, scheduler := sch, wins := wins }) (by
        intro p hp
        show p.2 < r.tuner.sampleParameters.length
        rw [hi.params.len]; exact (hsort p hp).1) hf
      rw [hf, hd1] at ht
      simp only at ht
      have htd : t.generation = r.tuner.generation + 1 ∧ t.distribution = d := by
        split at ht
        · unfold Tuner.reset at ht
          simp only at ht
          split at ht
          · cases ht
          · injection ht with ht; rw [← ht]; exact ⟨rfl, rfl⟩
        · injection ht with ht; rw [← ht]; exact ⟨rfl, rfl⟩
      have hcount := C65_elite_count r.config hi.ok.samples hi.ok.elite
      have hbest := C65_best wins (eliteCount r.config) (by rw [hwl, ← hi.samples]; exact hcount.2)
      have hmap : (List.range n).map (points log r.tuner.generation) = wins := by
        apply List.ext_getElem?
        intro i
        by_cases hin : i < n
        · rw [hwin i hin, List.getElem?_map, List.getElem?_range hin, Option.map_some]
        · rw [List.getElem?_eq_none (by simpa using hin), List.getElem?_eq_none (by omega)]
      refine ⟨htd.1, ((sorter wins).take (eliteCount r.config)).map (·.2), by rw [hmap]; exact hbest, by rw [htd.2]; exact hd2, _, rfl, ?_⟩
      have hsnd := sorter_nodup wins
      obtain ⟨l1, l2⟩ := resultLines_spec S (n := n) { r.tuner with scheduler := sch, wins := wins } (eliteCount r.config) (((sorter wins).take (eliteCount r.config)).map (·.2))
        (points log r.tuner.generation) (sorter wins) 0 hsort hi.params.len (by
          intro j p hp
          rw [Nat.zero_add, List.map_take]
          have hpj : ((sorter wins).map (·.2))[j]? = some p.2 := by rw [List.getElem?_map, hp]; rfl
          obtain ⟨hjl, hpj'⟩ := List.getElem?_eq_some_iff.1 hpj
          constructor
          · intro hm
            obtain ⟨k, hk⟩ := List.mem_iff_getElem?.1 hm
            rw [List.getElem?_take] at hk
            split at hk
            · rename_i hkc
              obtain ⟨hkl, hk'⟩ := List.getElem?_eq_some_iff.1 hk
              have := (List.Nodup.getElem_inj_iff hsnd).1 (hpj'.trans hk'.symm)
              omega
            · cases hk
          · intro hjc
            exact List.mem_iff_getElem?.2 ⟨j, by rw [List.getElem?_take, if_pos hjc]; exact hpj⟩)
      obtain ⟨f1, f2⟩ := formatDistribution_spec S r.tuner.distribution
      unfold historyTexts
      show (∀ texts, (match formatDistribution S r.tuner.distribution with | .error e => .error e | .ok d => _) = Except.ok texts → _) ∧ _
      simp only
      cases hfd : formatDistribution S r.tuner.distribution with
      | error y =>
        refine ⟨fun l hl => (by simp only at hl; cases hl), fun e' he' => ?_⟩
        simp only at he'
        injection he' with he'
        obtain ⟨e1, a1, a2⟩ := f2 y hfd
        exact ⟨_, e1, .inl rfl, a1, by rw [← he', a2]⟩
      | ok dt =>
        simp only
        unfold generationResults
        cases hrl : resultLines S { r.tuner with scheduler := sch, wins := wins } (eliteCount r.config) 0 (sorter wins) with
        | error y =>
          refine ⟨fun l hl => (by simp only at hl; cases hl), fun e' he' => ?_⟩
          simp only at he'
          injection he' with he'
          obtain ⟨ps, hps, e1, a1, a2⟩ := l2 y hrl
          exact ⟨ps, e1, .inr hps, a1, by rw [← he', a2]⟩
        | ok lines =>
          refine ⟨fun texts hx => ?_, fun e' he' => (by simp only at he'; cases he')⟩
          simp only at hx
          injection hx with hx
          refine ⟨dt, (sorter wins).map (·.2), lines, f1 dt hfd, ?_, ?_, ?_, l1 lines hrl, hx.symm⟩
          · have := (sortPairs_perm wins.zipIdx).map (·.2)
            rw [zipIdx_snd, hwl] at this
            exact this
          · have hs := sortPairs_sorted (l := wins.zipIdx) (by rw [zipIdx_snd]; exact List.nodup_range)
            rw [List.pairwise_map]
            refine List.Pairwise.imp_of_mem ?_ hs
            intro a b ha hb hab
            rw [pairGreater_iff] at hab
            rw [(hsort a ha).2.1, (hsort b hb).2.1]
            rcases hab with hab | ⟨h1, h2⟩
            · exact .inl hab
            · exact .inr ⟨h1.symm, h2⟩
          · rw [List.map_take]; exact List.take_prefix _ _
  · left
    simp only [haf, Bool.false_eq_true, if_false] at ht ⊢
    injection ht with ht
    rw [← ht]
    exact ⟨rfl, trivial⟩

/-- C87: the note in the game record of a game in progress shows the parameters of its candidate. -/
theorem C87_note (S : Show ε) {n lo hi : Nat} {s : Sys} {o : Option Config} {r : Run} (h : Reached n lo hi s o) (hr : s.run = some r) (p : Job × Nat) (hp : p ∈ r.jobs) :
    ∃ i ps, p.1.code = candidateName r.tuner.generation i ∧ r.tuner.sampleParameters[i]? = some ps ∧
      (∀ note, jobNote S r.tuner p.1.candidate = .ok note → ∃ s, S.params ps = .ok s ∧ note = "Candidate parameters: ".toList ++ s) ∧
      ∀ x, jobNote S r.tuner p.1.candidate = .error x → ∃ e', S.params ps = .error e' ∧ x = .fmt e' := by
  obtain ⟨ho, l, cur, hl, hi, hlt⟩ := (reached_inv h).run r hr
  obtain ⟨hj, hout, hcl, hcur⟩ := hi.mem_job hp
  subst hcur
  have hlt : p.1.candidate < r.tuner.sampleParameters.length := by rw [hi.params.len]; exact hcl
  refine ⟨p.1.candidate, _, hj.code, List.getElem?_eq_getElem hlt, ?_⟩
  unfold jobNote showParams
  rw [List.getElem?_eq_getElem hlt]
  simp only
  cases hs : S.params r.tuner.sampleParameters[p.1.candidate] with
  | error e' =>
    refine ⟨fun l hl => (by simp only at hl; cases hl), fun e he => ?_⟩
    simp only at he
    injection he with he
    exact ⟨e', rfl, he.symm⟩
  | ok t =>
    refine ⟨fun u hu => ?_, fun e he => (by simp only at he; cases he)⟩
    simp only at hu
    injection hu with hu
    exact ⟨t, rfl, hu.symm⟩

/-- C87: the start of a generation is written in the event log, if no game of it has been played or is being played. -/
theorem C87_starting {n lo hi : Nat} {s : Sys} {o : Option Config} {r : Run} (h : Reached n lo hi s o) (hr : s.run = some r) (hst : r.stopping = false) :
    (r.tuner.generation < r.config.generations ∧ r.jobs = [] ∧ (∀ i t, gameName r.tuner.generation i t ∉ s.log.map (·.1)) ∧
      startingEvent r.tuner = ["\nstarting generation ".toList ++ strInt r.tuner.generation]) ∨
    (¬ (r.tuner.generation < r.config.generations ∧ r.jobs = [] ∧ ∀ i t, gameName r.tuner.generation i t ∉ s.log.map (·.1)) ∧ startingEvent r.tuner = []) := by
  obtain ⟨ho, l, cur, hl, hi, hlt⟩ := (reached_inv h).run r hr
  unfold startingEvent
  rw [hl]
  by_cases hno : r.tuner.scheduler.nothingIssuedYet = true
  · left
    rw [if_pos hno]
    unfold Group.nothingIssuedYet at hno
    rw [List.all_eq_true] at hno
    have hall : ∀ i < n, (allocOf r.tuner.scheduler i).issued = 0 := by
      intro i hin
      obtain ⟨en, he, rfl⟩ := mem_codes.1 ((hi.core.codes i).2 hin)
      rw [allocOf_of_mem hi.core.nodup he]
      simpa using hno en he
    have hfix : ∀ i < n, (allocOf r.tuner.scheduler i).outstanding = [] ∧ rounds l cur i = [] ∧ (allocOf r.tuner.scheduler i).fixed = 0 := by
      intro i hin
      obtain ⟨evs, h1, h2, h3⟩ := hi.core.alloc i
      have h4 := h1.issuedN
      have h5 := h1.fixedN
      have h6 := hall i hin
      rw [h2] at h4 h5
      refine ⟨List.length_eq_zero_iff.1 (by omega), List.length_eq_zero_iff.1 (by omega), by omega⟩
    have hgen : cur = r.tuner.generation ∧ r.tuner.generation < r.config.generations := by
      rcases hi.phase with ⟨a, b⟩ | ⟨a, b, hx⟩
      · exact ⟨a, by omega⟩
      · have h1 := hi.ok.samples
        have h2 := hi.ok.batch
        rw [hi.samples] at h1
        have h3 := hx 0 (by omega)
        rw [(hfix 0 (by omega)).2.2] at h3
        omega
    refine ⟨hgen.2, ?_, ?_, rfl⟩
    · cases hj : r.jobs with
      | nil => rfl
      | cons p ps =>
        have := (hi.mem_job (j := p) (by rw [hj]; exact List.mem_cons_self))
        rw [(hfix _ this.2.2.1).1] at this
        exact absurd this.2.1 (by simp)
    · intro i t hm
      rw [← hgen.1, mem_names] at hm
      obtain ⟨y, hy, hy1, hy2, hy3⟩ := mem_rounds.1 hm
      have := (hi.core.range y hy).2
      rw [(hfix i (by omega)).2.1] at hm
      cases hm
  · right
    rw [if_neg hno]
    refine ⟨?_, rfl⟩
    rintro ⟨hg, hj, hn⟩
    apply hno
    have hcur : cur = r.tuner.generation := by rcases hi.phase with ⟨a, _⟩ | ⟨a, b, _⟩ <;> omega
    unfold Group.nothingIssuedYet
    rw [List.all_eq_true]
    intro en he
    obtain ⟨evs, h1, h2, h3⟩ := hi.core.alloc en.code
    have h4 := h1.issuedN
    have h5 := h1.fixedN
    have h6 : rounds l cur en.code = [] := by
      cases hrd : rounds l cur en.code with
      | nil => rfl
      | cons t ts =>
        refine absurd (mem_names.2 ?_) (hn en.code t)
        rw [← hcur, hrd]
        exact List.mem_cons_self
    have h7 : (allocOf r.tuner.scheduler en.code).outstanding = [] := by
      cases hos : (allocOf r.tuner.scheduler en.code).outstanding with
      | nil => rfl
      | cons t ts =>
        have := (hi.out en.code t).2 hst (by rw [hos]; exact List.mem_cons_self)
        rw [hj] at this
        cases this
    rw [h2, h6] at h4 h5
    rw [h7] at h4
    rw [allocOf_of_mem hi.core.nodup he] at h4 h5
    simp only [List.length_nil] at h4 h5
    simp only [beq_iff_eq]
    omega

/-! ### A concrete case -/

namespace Example

/-- Numbers as fractions; the formatter refuses nothing. -/
def sampleShow : Show Unit :=
  let f := fun q : Rat => strInt q.num ++ "/".toList ++ strInt q.den
  { f52 := f, f42 := f, num := f, params := fun ps => .ok ("p=".toList ++ join ",".toList (ps.map f)) }

/-- What was reported. -/
def linesOf (r : Except (RErr Unit) (List Str)) : List Str := match r with | .ok l => l | .error _ => ["error".toList]

/-- Just before the last result. -/
def almost : Sys := ops2.dropLast.foldl Sys.step (middle.step (.start (config 2 2) env))

/-- The screen report. -/
def screenOf (s : Sys) : List Str := match s.run with | none => [] | some r => linesOf (screenReport sampleShow r.config r.tuner)

/-- What's written in the history if the first game in progress is won by Black. -/
def historyOf (s : Sys) : List Str := match s.run with
  | none => []
  | some r => match r.jobs with
    | [] => []
    | p :: _ => match resultHistory sampleShow r.config p.1 (p.1.result blackWin) r.tuner with
      | none => []
      | some x => linesOf x

theorem reached_almost : Reached 2 1 2 almost (some (config 2 2)) := by
  refine reached_steps (Reached.start (config 2 2) env reached_middle (by decide +kernel) (config_ok 2 2 (by decide) (by decide)) rfl (by decide) ?_) ops2.dropLast ?_
  · intro o' sv ho hs
    cases ho
    left
    have hg : middle.saved.map (·.generation) = some 1 := by decide +kernel
    rw [hs] at hg
    have : sv.generation = 1 := by simpa using hg
    rw [this]
    decide
  · intro op hop c e heq
    subst heq
    simp [ops2] at hop

end Example

open Example in
/-- C87: reports before and after the last result, and what's written in the history for it.  The first candidate's one and a half points are shown as 1. -/
theorem C87_witness : Reached 2 1 2 almost (some (config 2 2)) ∧ Reached 2 1 2 final (some (config 2 2)) ∧
    screenOf almost = ["generation 1", "", "wins from current samples:\n[3/2, 1/1]", "", "distribution for generation 1:", "p=1/2\n1/2~1/2"].map String.toList ∧
    historyOf almost = ["Generation 1", "Distribution\np=1/2\n1/2~1/2", "g1#1* p=1/1   2\ng1#0  p=0/1   1", ""].map String.toList ∧
    screenOf final = ["generation 2", "", "wins from current samples:\n[3/2, 2/1]", "", "final distribution:", "p=3/4\n3/4~1/4"].map String.toList :=
  ⟨reached_almost, reached_final, by decide +kernel, by decide +kernel, by decide +kernel⟩

end Gomill.Cem
