import Verif.Lemmas.Jobs
/-
C41: gomill/job_manager.py.

`(Mp.start src n).run S steps` is the multiprocessing job manager with `n` workers, working for the job source `S`, after any
interleaving `steps` of the managing process and the workers (with arbitrary job outcomes and arbitrary environment
inputs).  `inFlight` is the jobs handed out by the source which haven't been reported back to it.
-/
namespace Gomill.Jobs
variable {σ J X ε E : Type}

/-- C41: never more than `n` jobs in flight; while the loop is running, `active_jobs` is their number. -/
theorem C41_bound (S : Source σ J X ε E) (src : σ) {n : Nat} (hn : 0 < n) (steps : List (Step X ε)) :
    let m := (Mp.start src n : Mp σ J X E).run S steps
    m.inFlight.length ≤ n ∧ m.running.length ≤ n ∧
    ((m.phase = .looping ∨ m.phase = .waiting) → m.active = m.inFlight.length) := by
  intro m
  have hi := (MInv.start src hn : MInv (Mp.start src n : Mp σ J X E)).run S steps
  have hnum : m.number = n := by
    have : ∀ (l : List (Step X ε)) (m0 : Mp σ J X E), (m0.run S l).number = m0.number := by
      intro l
      induction l with
      | nil => intro m0; rfl
      | cons s l ih =>
        intro m0
        have hs : (m0.step S s).number = m0.number := by
          cases s with
          | mgr e =>
            show (m0.mgr S e).number = m0.number
            have ha : ∀ m1 : Mp σ J X E, m1.afterGet.number = m1.number := by
              intro m1; unfold Mp.afterGet; split <;> rfl
            have he : ∀ (m1 : Mp σ J X E) r, (m1.endOfLoop r).number = m1.number := by
              intro m1 r; cases r <;> rfl
            unfold Mp.mgr
            split
            · unfold Mp.topOfLoop
              split
              · split
                · rfl
                · rfl
                · rw [ha]
              · rw [ha]
            · unfold Mp.takeResponse
              split
              · rfl
              · rw [he]
              · rw [he]
            · split <;> rfl
            · rfl
          | take k => show (m0.take k).number = _; unfold Mp.take; split <;> rfl
          | finishJob k x => show (m0.finishJob k x).number = _; unfold Mp.finishJob; split <;> rfl
        exact (ih _).trans hs
    exact this steps _
  have hp : PInv m m.phase := hi.phase
  have hle : m.inFlight.length ≤ n := by
    rw [← hnum]
    cases hph : m.phase <;> rw [hph] at hp
    · exact hp.1 ▸ hp.2.2.2
    · exact hp.1 ▸ hp.2.2.2.1
    · exact hp.2.1
    · exact hp.2.1
  refine ⟨hle, ?_, ?_⟩
  · have : m.running.length ≤ m.inFlight.length := by unfold Mp.inFlight; simp; omega
    omega
  · rintro (h | h) <;> rw [h] at hp <;> exact hp.1

/-- C41: every job handed out is in flight or has been reported exactly once; every job is run once, and what's reported is
what running it gave. (`Perm`: the same list up to order, so counting repetitions.) -/
theorem C41_exactly_once (S : Source σ J X ε E) (src : σ) {n : Nat} (hn : 0 < n) (steps : List (Step X ε)) :
    let m := (Mp.start src n : Mp σ J X E).run S steps
    (gotJobs m.log).Perm ((processedJobs m.log).map Prod.fst ++ m.inFlight) ∧
    (gotJobs m.log).Perm ((ranJobs m.log).map Prod.fst ++ (m.queued ++ m.running)) ∧
    (ranJobs m.log).Perm (processedJobs m.log ++ m.respQ) := by
  intro m
  have hb := ((MInv.start src hn : MInv (Mp.start src n : Mp σ J X E)).run S steps).base
  refine ⟨?_, hb.got, hb.ran⟩
  refine hb.got.trans ?_
  have h1 := hb.ran.map Prod.fst
  rw [List.map_append] at h1
  refine (List.Perm.append_right _ h1).trans ?_
  rw [List.append_assoc]
  refine List.Perm.append_left _ ?_
  show (m.respQ.map Prod.fst ++ (m.queued ++ m.running)).Perm (m.queued ++ m.running ++ m.respQ.map Prod.fst)
  exact List.perm_append_comm

/-- C41: run_jobs returns normally only when the last get_job() said NoJobAvailable and every job handed out has been run
and reported; all the workers have been shut down.  If it raises, the workers have been shut down too. -/
theorem C41_finished (S : Source σ J X ε E) (src : σ) {n : Nat} (hn : 0 < n) (steps : List (Step X ε)) (exc : Option E)
    (h : ((Mp.start src n : Mp σ J X E).run S steps).phase = .returned exc) :
    let m := (Mp.start src n : Mp σ J X E).run S steps
    (∀ w ∈ m.workers, w = .stopped) ∧
    (exc = none → m.inFlight = [] ∧ m.log.head? = some .nothing ∧
      (gotJobs m.log).Perm ((processedJobs m.log).map Prod.fst) ∧ (ranJobs m.log).Perm (processedJobs m.log)) := by
  intro m
  have hi := (MInv.start src hn : MInv (Mp.start src n : Mp σ J X E)).run S steps
  have hp : PInv m m.phase := hi.phase
  have hph : m.phase = .returned exc := h
  rw [hph] at hp
  obtain ⟨h1, h2, h3, h4⟩ := hp
  constructor
  · intro w hw
    have h5 : m.workers.countP Worker.isStopped = m.workers.length := by rw [hi.base.workers]; exact h3
    have := List.countP_eq_length.1 h5 w hw
    cases w <;> simp_all [Worker.isStopped]
  · intro he
    obtain ⟨h5, h6⟩ := h4 he
    obtain ⟨g1, g2, g3⟩ := C41_exactly_once S src hn steps (E := E) (J := J)
    refine ⟨h5, h6, ?_, ?_⟩
    · rw [show ((Mp.start src n : Mp σ J X E).run S steps).inFlight = [] from h5, List.append_nil] at g1
      exact g1
    · have : m.respQ = [] := by
        have := h5; unfold Mp.inFlight at this
        simp at this; exact this.2.2
      rw [show ((Mp.start src n : Mp σ J X E).run S steps).respQ = [] from this, List.append_nil] at g3
      exact g3

/-- C41: no deadlock: until run_jobs has returned, some process can make a step, whatever the environment and whatever the
outcome of the jobs. -/
theorem C41_no_deadlock (S : Source σ J X ε E) (src : σ) {n : Nat} (hn : 0 < n) (steps : List (Step X ε))
    (h : ∀ exc, ((Mp.start src n : Mp σ J X E).run S steps).phase ≠ .returned exc) (e : ε) (x : Option X) :
    let m := (Mp.start src n : Mp σ J X E).run S steps
    m.mgr S e ≠ m ∨ ∃ k, m.take k ≠ m ∨ m.finishJob k x ≠ m := by
  intro m
  have hi : MInv m := (MInv.start src hn : MInv (Mp.start src n : Mp σ J X E)).run S steps
  have hp := hi.phase
  have hlen := hi.base.workers
  have hbusy : ∀ k j, m.workers[k]? = some (.busy j) → m.finishJob k x ≠ m := by
    intro k j hk hc
    have := congrArg (fun m => m.respQ.length) hc
    unfold Mp.finishJob at this
    rw [hk] at this
    simp at this
  have hidle : ∀ k, m.workers[k]? = some .idle → m.jobQ ≠ [] → m.take k ≠ m := by
    intro k hk hq hc
    have := congrArg (fun m => m.jobQ.length) hc
    unfold Mp.take at this
    rw [hk] at this
    cases hj : m.jobQ with
    | nil => exact hq hj
    | cons a q => rw [hj] at this; cases a <;> simp at this
  have hafter : ∀ m1 : Mp σ J X E, m1.afterGet.phase ≠ .looping := by
    intro m1; unfold Mp.afterGet; split <;> simp [Mp.beginFinish]
  cases hph : m.phase with
  | returned exc => exact absurd hph (h exc)
  | looping =>
    left
    intro hc
    unfold Mp.mgr at hc
    rw [hph] at hc
    simp only at hc
    unfold Mp.topOfLoop at hc
    split at hc
    · rcases hg : S.getJob e m.src with ⟨y | _ | j, s⟩
      · rw [hg] at hc
        have := congrArg Mp.phase hc
        rw [hph] at this; simp [Mp.beginFinish] at this
      · rw [hg] at hc
        have := congrArg Mp.phase hc
        rw [hph] at this; exact hafter _ this
      · rw [hg] at hc
        have := congrArg Mp.active hc
        simp at this
    · have := congrArg Mp.phase hc
      rw [hph] at this; exact hafter _ this
  | waiting =>
    rw [hph] at hp
    obtain ⟨ha, hs, ht, hle, hpos⟩ := hp
    cases hq : m.respQ with
    | cons r rest =>
      left
      intro hc
      unfold Mp.mgr at hc
      rw [hph] at hc
      simp only at hc
      unfold Mp.takeResponse at hc
      have he : ∀ (m1 : Mp σ J X E) r, (m1.endOfLoop r).respQ = m1.respQ := by
        intro m1 r; cases r <;> rfl
      obtain ⟨j, _ | y⟩ := r
      · rw [hq] at hc
        have := congrArg (fun m => m.respQ.length) hc
        simp only [he] at this
        rw [hq] at this; simp at this
      · rw [hq] at hc
        have := congrArg (fun m => m.respQ.length) hc
        simp only [he] at this
        rw [hq] at this; simp at this
    | nil =>
      right
      by_cases hb : ∃ j, Worker.busy j ∈ m.workers
      · obtain ⟨j, hj⟩ := hb
        obtain ⟨k, hk⟩ := List.mem_iff_getElem?.1 hj
        exact ⟨k, Or.inr (hbusy k j hk)⟩
      · have hrun : m.running = [] := by
          unfold Mp.running
          rw [List.filterMap_eq_nil_iff]
          intro w hw
          cases w with
          | busy j => exact absurd ⟨j, hw⟩ hb
          | idle => rfl
          | stopped => rfl
        have hqne : m.jobQ ≠ [] := by
          intro hc
          have : m.inFlight = [] := by
            unfold Mp.inFlight Mp.queued; rw [hrun, hq, hc]; rfl
          rw [this] at ha; simp at ha; omega
        have h0 : 0 < m.workers.length := by rw [hlen]; exact hi.base.pos
        have hmem : m.workers[0] ∈ m.workers := List.getElem_mem h0
        refine ⟨0, Or.inl (hidle 0 ?_ hqne)⟩
        rw [List.getElem?_eq_getElem h0]
        cases hw : m.workers[0] with
        | idle => rfl
        | busy j => exact absurd ⟨j, hw ▸ hmem⟩ hb
        | stopped =>
          exfalso
          have := List.countP_eq_zero.1 (show m.workers.countP Worker.isStopped = 0 from ht) _ hmem
          rw [hw] at this; simp [Worker.isStopped] at this
  | finishing exc =>
    rw [hph] at hp
    obtain ⟨h1, h2, h3⟩ := hp
    by_cases hall : m.workers.all Worker.isStopped = true
    · left
      intro hc
      unfold Mp.mgr at hc
      rw [hph] at hc
      simp only at hc
      rw [if_pos hall] at hc
      have := congrArg Mp.phase hc
      rw [hph] at this; simp at this
    · right
      rw [List.all_eq_true] at hall
      push Not at hall
      obtain ⟨w, hw, hns⟩ := hall
      obtain ⟨k, hk⟩ := List.mem_iff_getElem?.1 hw
      refine ⟨k, ?_⟩
      cases w with
      | stopped => exact absurd rfl hns
      | busy j => exact Or.inr (hbusy k j hk)
      | idle =>
        left
        refine hidle k hk ?_
        intro hc
        have hs0 : m.signals = 0 := by unfold Mp.signals; rw [hc]; rfl
        rw [hs0, Nat.zero_add] at h1
        have : m.workers.countP Worker.isStopped = m.workers.length := by rw [hlen]; exact h1
        exact hns (List.countP_eq_length.1 this _ hw)

/-- C41: no livelock: a run in which every step does something takes at most `n + 3` steps plus 7 for each job handed out.
With `C41_no_deadlock`: if the source stops handing out jobs (and the jobs finish), run_jobs returns. -/
theorem C41_terminates (S : Source σ J X ε E) (src : σ) (n : Nat) (steps : List (Step X ε))
    (h : Effective S (Mp.start src n : Mp σ J X E) steps) :
    steps.length ≤ n + 3 + 7 * (gotJobs ((Mp.start src n : Mp σ J X E).run S steps).log).length := by
  have := effective_bound S steps _ h
  have hw : (Mp.start src n : Mp σ J X E).work = n + 3 := by
    have h1 : (List.replicate n (Worker.idle : Worker J)).filterMap Worker.job? = [] := by
      rw [List.filterMap_replicate_of_none rfl]
    simp [Mp.work, Mp.start, Mp.queued, Mp.running, h1, Mp.signals, Phase.weight]
  have hg : (gotJobs (Mp.start src n : Mp σ J X E).log).length = 0 := rfl
  omega

/-- C41: the in-process job manager runs and reports each job as soon as it gets it, in order; it returns only after
NoJobAvailable (or raises what the source raised). -/
theorem C41_in_process (S : Source σ J X ε E) (src : σ) (l : List (ε × ε × Option X)) :
    let m := (Ip.start src : Ip σ J X E).run S l
    gotJobs m.log = (processedJobs m.log).map Prod.fst ∧ ranJobs m.log = processedJobs m.log ∧
    (m.over = some none ↔ m.log.head? = some .nothing) := by
  have key : ∀ (l : List (ε × ε × Option X)) (m : Ip σ J X E),
      (gotJobs m.log = (processedJobs m.log).map Prod.fst ∧ ranJobs m.log = processedJobs m.log ∧
        (m.over = some none ↔ m.log.head? = some .nothing)) →
      (gotJobs (m.run S l).log = (processedJobs (m.run S l).log).map Prod.fst ∧
        ranJobs (m.run S l).log = processedJobs (m.run S l).log ∧
        ((m.run S l).over = some none ↔ (m.run S l).log.head? = some .nothing)) := by
    intro l
    induction l with
    | nil => intro m h; exact h
    | cons a l ih =>
      intro m ⟨h1, h2, h3⟩
      refine ih (Ip.step S m a) ?_
      unfold Ip.step
      cases ho : m.over with
      | some o => exact ⟨h1, h2, h3⟩
      | none =>
        simp only
        rcases hg : S.getJob a.1 m.src with ⟨y | _ | j, s⟩
        · refine ⟨h1, h2, ?_⟩
          rw [ho] at h3
          simp only [Option.some.injEq, reduceCtorEq, false_iff] at h3 ⊢
          exact h3
        · exact ⟨h1, h2, by simp⟩
        · obtain ⟨e1, e2, _ | x⟩ := a
          · refine ⟨?_, ?_, ?_⟩
            · simp [Ip.runJob, gotJobs, processedJobs, h1]
            · simp [Ip.runJob, ranJobs, processedJobs, h2]
            · simp only [Ip.runJob]
              split <;> simp
          · refine ⟨?_, ?_, ?_⟩
            · simp [Ip.runJob, gotJobs, processedJobs, h1]
            · simp [Ip.runJob, ranJobs, processedJobs, h2]
            · simp only [Ip.runJob]
              split <;> simp
  exact key l _ ⟨rfl, rfl, by simp [Ip.start]⟩

/-- A source handing out the numbers below its state. -/
def countdown : Source Nat Nat Nat Unit Unit where
  getJob _ s := if s = 0 then (.ok none, s) else (.ok (some s), s - 1)
  processResponse _ _ _ s := (.ok (), s)
  processError _ _ s := (.ok (), s)

/-- Two workers, three jobs finishing out of order, one of them failing; every step does something, and run_jobs returns. -/
theorem C41_witness :
    let steps : List (Step Nat Unit) := [.mgr (), .mgr (), .take 1, .take 0, .mgr (), .finishJob 0 (some 7), .mgr (), .mgr (),
      .take 0, .mgr (), .finishJob 0 none, .finishJob 1 (some 5), .mgr (), .mgr (), .mgr (), .mgr (), .take 0, .take 1, .mgr ()]
    let m := (Mp.start 3 2 : Mp Nat Nat Nat Unit).run countdown steps
    m.phase = .returned none ∧ (processedJobs m.log).map Prod.fst = [3, 1, 2] ∧ gotJobs m.log = [1, 2, 3] ∧
    processedJobs m.log = [(3, some 5), (1, none), (2, some 7)] := by decide

end Gomill.Jobs
