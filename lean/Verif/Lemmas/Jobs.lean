import Verif.Spec.Jobs
import Mathlib.Data.List.Perm.Basic
/-
Invariants of the job managers.
-/
namespace Gomill.Jobs
variable {σ J X ε E : Type}

theorem split_at {α} {l : List α} {k : Nat} {a : α} (h : l[k]? = some a) :
    ∃ l1 l2, l = l1 ++ a :: l2 ∧ ∀ b, l.set k b = l1 ++ b :: l2 := by
  obtain ⟨hk, rfl⟩ := List.getElem?_eq_some_iff.1 h
  refine ⟨l.take k, l.drop (k + 1), ?_, ?_⟩
  · rw [List.getElem_cons_drop, List.take_append_drop]
  · intro b
    rw [List.set_eq_take_append_cons_drop, if_pos hk]

/-- Worker finish signals in the queue. -/
def Mp.signals (m : Mp σ J X E) : Nat := m.jobQ.countP Option.isNone
/-- Workers which have finished. -/
def Mp.stopped (m : Mp σ J X E) : Nat := m.workers.countP Worker.isStopped

structure MBase (m : Mp σ J X E) : Prop where
  pos : 0 < m.number
  got : (gotJobs m.log).Perm ((ranJobs m.log).map Prod.fst ++ (m.queued ++ m.running))
  ran : (ranJobs m.log).Perm (processedJobs m.log ++ m.respQ)
  workers : m.workers.length = m.number

def PInv (m : Mp σ J X E) : Phase E → Prop
  | .looping => m.active = m.inFlight.length ∧ m.signals = 0 ∧ m.stopped = 0 ∧ m.active ≤ m.number
  | .waiting => m.active = m.inFlight.length ∧ m.signals = 0 ∧ m.stopped = 0 ∧ m.active ≤ m.number ∧ 0 < m.active
  | .finishing exc => m.signals + m.stopped = m.number ∧ m.inFlight.length ≤ m.number ∧
        (exc = none → m.inFlight = [] ∧ m.log.head? = some .nothing)
  | .returned exc => m.signals + m.stopped = m.number ∧ m.inFlight.length ≤ m.number ∧ m.stopped = m.number ∧
        (exc = none → m.inFlight = [] ∧ m.log.head? = some .nothing)

structure MInv (m : Mp σ J X E) : Prop where
  base : MBase m
  phase : PInv m m.phase

theorem MInv.start (src : σ) {n : Nat} (hn : 0 < n) : MInv (Mp.start src n : Mp σ J X E) := by
  have h1 : (List.replicate n (Worker.idle : Worker J)).filterMap Worker.job? = [] := by
    rw [List.filterMap_replicate_of_none rfl]
  refine ⟨⟨hn, ?_, ?_, ?_⟩, ?_⟩ <;> simp [Mp.start, gotJobs, ranJobs, processedJobs, Mp.queued, Mp.running, h1, Mp.inFlight,
    Mp.signals, Mp.stopped, List.countP_replicate, Worker.isStopped, PInv]

theorem beginFinish_queued (m : Mp σ J X E) (exc : Option E) : (m.beginFinish exc).queued = m.queued := by
  unfold Mp.queued Mp.beginFinish
  rw [List.filterMap_append, List.filterMap_replicate_of_none rfl, List.append_nil]

theorem beginFinish_inFlight (m : Mp σ J X E) (exc : Option E) : (m.beginFinish exc).inFlight = m.inFlight := by
  unfold Mp.inFlight; rw [beginFinish_queued]; rfl

theorem MBase.beginFinish {m : Mp σ J X E} (h : MBase m) {exc : Option E} (hs : m.signals = 0) (ht : m.stopped = 0)
    (hl : m.inFlight.length ≤ m.number)
    (he : exc = none → m.inFlight = [] ∧ m.log.head? = some .nothing) : MInv (m.beginFinish exc) := by
  refine ⟨⟨h.pos, ?_, h.ran, h.workers⟩, ?_⟩
  · rw [beginFinish_queued]; exact h.got
  · have h1 : (m.beginFinish exc).signals = m.signals + m.number := by
      simp [Mp.signals, Mp.beginFinish, List.countP_replicate]
    have h2 : (m.beginFinish exc).stopped = m.stopped := rfl
    show PInv _ (.finishing exc)
    unfold PInv
    rw [beginFinish_inFlight, h1, h2]
    refine ⟨?_, hl, he⟩
    rw [hs, ht]; simp [Mp.beginFinish]

theorem MBase.afterGet {m : Mp σ J X E} (h : MBase m) (hp : PInv m .looping)
    (hh : m.active = 0 → m.log.head? = some .nothing) : MInv m.afterGet := by
  obtain ⟨ha, hs, ht, hle⟩ := hp
  unfold Mp.afterGet
  split
  · rename_i h0
    refine h.beginFinish hs ht (by omega) (fun _ => ⟨?_, hh h0⟩)
    apply List.eq_nil_of_length_eq_zero; omega
  · rename_i h0
    refine ⟨⟨h.1, h.2, h.3, h.4⟩, ⟨ha, hs, ht, hle, ?_⟩⟩
    show 0 < m.active
    omega

theorem MBase.topOfLoop {m : Mp σ J X E} (h : MBase m) (hp : PInv m .looping) (hph : m.phase = .looping)
    (S : Source σ J X ε E) (e : ε) :
    MInv (m.topOfLoop S e) := by
  have hp' := hp
  obtain ⟨ha, hs, ht, hle⟩ := hp
  unfold Mp.topOfLoop
  split
  · rename_i hlt
    rcases hg : S.getJob e m.src with ⟨x | _ | j, s⟩
    · simp only
      exact MBase.beginFinish (m := { m with src := s }) ⟨h.1, h.2, h.3, h.4⟩ hs ht (ha ▸ hle) (by simp)
    · simp only
      exact MBase.afterGet (m := { m with src := s, log := .nothing :: m.log }) ⟨h.1, h.2, h.3, h.4⟩ hp' (fun _ => rfl)
    · simp only
      have hq : (m.jobQ ++ [some j]).filterMap id = m.queued ++ [j] := by simp [Mp.queued]
      refine ⟨⟨h.1, ?_, h.3, h.4⟩, ?_⟩
      · show (j :: gotJobs m.log).Perm ((ranJobs m.log).map Prod.fst ++ ((m.jobQ ++ [some j]).filterMap id ++ m.running))
        rw [hq]
        refine (List.Perm.cons j h.2).trans ?_
        simp only [List.append_assoc, List.singleton_append]
        rw [← List.append_assoc, ← List.append_assoc]
        exact List.perm_middle.symm
      · show PInv _ m.phase
        rw [hph]
        refine ⟨?_, ?_, ht, ?_⟩
        · show m.active + 1 = ((m.jobQ ++ [some j]).filterMap id ++ m.running ++ m.respQ.map Prod.fst).length
          rw [hq]
          unfold Mp.inFlight at ha
          simp only [List.length_append, List.length_cons, List.length_nil, List.length_map] at ha ⊢
          omega
        · simpa [Mp.signals] using hs
        · show m.active + 1 ≤ m.number; omega
  · rename_i hlt
    have := h.1
    exact h.afterGet hp' (fun h0 => by omega)

theorem MBase.takeResponse {m : Mp σ J X E} (h : MBase m) (hp : PInv m .waiting) (hph : m.phase = .waiting)
    (S : Source σ J X ε E) (e : ε) : MInv (m.takeResponse S e) := by
  have hp' := hp
  obtain ⟨ha, hs, ht, hle, hpos⟩ := hp
  have key : ∀ (j : J) (x : Option X) (rest : List (J × Option X)) (c : Call J X) (s : σ) (r : Except E Unit),
      m.respQ = (j, x) :: rest → gotJobs (c :: m.log) = gotJobs m.log → ranJobs (c :: m.log) = ranJobs m.log →
      processedJobs (c :: m.log) = (j, x) :: processedJobs m.log →
      MInv (Mp.endOfLoop { m with respQ := rest, src := s, log := c :: m.log } r) := by
    intro j x rest c s r hq hg hr hpr
    have hran : (ranJobs m.log).Perm (((j, x) :: processedJobs m.log) ++ rest) := by
      refine h.ran.trans ?_
      rw [hq, List.cons_append]
      exact List.perm_middle
    have hlen : (m.queued ++ m.running ++ rest.map Prod.fst).length + 1 = m.inFlight.length := by
      unfold Mp.inFlight
      rw [hq]
      simp; omega
    have hb : MBase ({ m with respQ := rest, src := s, log := c :: m.log } : Mp σ J X E) := by
      refine ⟨h.pos, ?_, ?_, h.workers⟩
      · show (gotJobs (c :: m.log)).Perm ((ranJobs (c :: m.log)).map Prod.fst ++ (m.queued ++ m.running))
        rw [hg, hr]; exact h.got
      · show (ranJobs (c :: m.log)).Perm (processedJobs (c :: m.log) ++ rest)
        rw [hr, hpr]; exact hran
    cases r with
    | ok _ =>
      refine ⟨⟨hb.1, hb.2, hb.3, hb.4⟩, ?_, hs, ht, ?_⟩
      · show m.active - 1 = (m.queued ++ m.running ++ rest.map Prod.fst).length
        omega
      · show m.active - 1 ≤ m.number; omega
    | error x' =>
      refine hb.beginFinish hs ht ?_ (by simp)
      show (m.queued ++ m.running ++ rest.map Prod.fst).length ≤ m.number
      omega
  unfold Mp.takeResponse
  rcases hq : m.respQ with _ | ⟨⟨j, _ | x⟩, rest⟩
  · exact ⟨h, hph ▸ hp'⟩
  · exact key j none rest _ _ _ hq rfl rfl rfl
  · exact key j (some x) rest _ _ _ hq rfl rfl rfl

theorem MInv.mgr {m : Mp σ J X E} (h : MInv m) (S : Source σ J X ε E) (e : ε) : MInv (m.mgr S e) := by
  have hp := h.phase
  unfold Mp.mgr
  split
  · rename_i hph; rw [hph] at hp; exact h.base.topOfLoop hp hph S e
  · rename_i hph; rw [hph] at hp; exact h.base.takeResponse hp hph S e
  · rename_i exc hph
    rw [hph] at hp
    split
    · rename_i hall
      refine ⟨⟨h.base.1, h.base.2, h.base.3, h.base.4⟩, hp.1, hp.2.1, ?_, hp.2.2⟩
      show m.workers.countP Worker.isStopped = m.number
      rw [← h.base.workers, List.countP_eq_length]
      exact List.all_eq_true.1 hall
    · exact h
  · exact h

theorem MInv.take {m : Mp σ J X E} (h : MInv m) (k : Nat) : MInv (m.take k) := by
  unfold Mp.take
  split
  · rename_i j q hk hq
    obtain ⟨l1, l2, hl, hset⟩ := split_at hk
    have hrun : (m.workers.set k (.busy j)).filterMap Worker.job? =
        l1.filterMap Worker.job? ++ j :: l2.filterMap Worker.job? := by
      rw [hset, List.filterMap_append, List.filterMap_cons]; rfl
    have hrun0 : m.running = l1.filterMap Worker.job? ++ l2.filterMap Worker.job? := by
      unfold Mp.running
      rw [hl, List.filterMap_append, List.filterMap_cons]; rfl
    have hq0 : m.queued = j :: q.filterMap id := by
      unfold Mp.queued; rw [hq]; rfl
    have hperm : (m.queued ++ m.running).Perm (q.filterMap id ++ (m.workers.set k (.busy j)).filterMap Worker.job?) := by
      rw [hq0, hrun, hrun0, List.cons_append, ← List.append_assoc, ← List.append_assoc]
      exact List.perm_middle.symm
    have hfl : (q.filterMap id ++ (m.workers.set k (.busy j)).filterMap Worker.job? ++ m.respQ.map Prod.fst).length
        = m.inFlight.length := by
      unfold Mp.inFlight
      exact (List.Perm.append_right _ hperm.symm).length_eq
    have hsig : q.countP Option.isNone = m.signals := by
      unfold Mp.signals; rw [hq]; simp
    have hst : (m.workers.set k (.busy j)).countP Worker.isStopped = m.stopped := by
      unfold Mp.stopped; rw [hset, hl]; simp [Worker.isStopped]
    refine ⟨⟨h.base.pos, h.base.got.trans (List.Perm.append_left _ hperm), h.base.ran, ?_⟩, ?_⟩
    · simpa using h.base.workers
    · have hp := h.phase
      show PInv _ m.phase
      cases hph : m.phase with
      | looping => rw [hph] at hp; exact ⟨hp.1.trans hfl.symm, hsig.trans hp.2.1, hst.trans hp.2.2.1, hp.2.2.2⟩
      | waiting => rw [hph] at hp; exact ⟨hp.1.trans hfl.symm, hsig.trans hp.2.1, hst.trans hp.2.2.1, hp.2.2.2⟩
      | finishing exc =>
        rw [hph] at hp
        refine ⟨?_, hfl.symm ▸ hp.2.1, ?_⟩
        · show q.countP Option.isNone + (m.workers.set k (.busy j)).countP Worker.isStopped = m.number
          rw [hsig, hst]; exact hp.1
        · intro he
          have := (hp.2.2 he).1
          rw [Mp.inFlight, hq0] at this; simp at this
      | returned exc =>
        rw [hph] at hp
        refine ⟨?_, hfl.symm ▸ hp.2.1, hst.trans hp.2.2.1, ?_⟩
        · show q.countP Option.isNone + (m.workers.set k (.busy j)).countP Worker.isStopped = m.number
          rw [hsig, hst]; exact hp.1
        · intro he
          have := (hp.2.2.2 he).1
          rw [Mp.inFlight, hq0] at this; simp at this
  · rename_i q hk hq
    obtain ⟨l1, l2, hl, hset⟩ := split_at hk
    have hrun : (m.workers.set k .stopped).filterMap Worker.job? = m.running := by
      unfold Mp.running
      rw [hset, hl, List.filterMap_append, List.filterMap_append, List.filterMap_cons, List.filterMap_cons]; rfl
    have hq0 : m.queued = q.filterMap id := by
      unfold Mp.queued; rw [hq]; rfl
    have hsig : q.countP Option.isNone + 1 = m.signals := by
      unfold Mp.signals; rw [hq]; simp
    have hst : (m.workers.set k .stopped).countP Worker.isStopped = m.stopped + 1 := by
      unfold Mp.stopped; rw [hset, hl]; simp [Worker.isStopped, List.countP_cons]; omega
    have hfl : q.filterMap id ++ (m.workers.set k .stopped).filterMap Worker.job? ++ m.respQ.map Prod.fst = m.inFlight := by
      unfold Mp.inFlight
      rw [hrun, hq0]
    refine ⟨⟨h.base.pos, ?_, h.base.ran, ?_⟩, ?_⟩
    · show (gotJobs m.log).Perm ((ranJobs m.log).map Prod.fst ++
        (q.filterMap id ++ (m.workers.set k .stopped).filterMap Worker.job?))
      rw [hrun, ← hq0]; exact h.base.got
    · simpa using h.base.workers
    · have hp := h.phase
      show PInv _ m.phase
      cases hph : m.phase with
      | looping => rw [hph] at hp; have := hp.2.1; omega
      | waiting => rw [hph] at hp; have := hp.2.1; omega
      | finishing exc =>
        rw [hph] at hp
        refine ⟨?_, ?_, ?_⟩
        · show q.countP Option.isNone + (m.workers.set k .stopped).countP Worker.isStopped = m.number
          have := hp.1; omega
        · exact Nat.le_trans (Nat.le_of_eq (congrArg List.length hfl)) hp.2.1
        · intro he
          exact ⟨hfl.trans (hp.2.2 he).1, (hp.2.2 he).2⟩
      | returned exc =>
        rw [hph] at hp
        have h1 := hp.1; have h2 := hp.2.2.1
        omega
  · exact h

theorem MInv.finishJob {m : Mp σ J X E} (h : MInv m) (k : Nat) (x : Option X) : MInv (m.finishJob k x) := by
  unfold Mp.finishJob
  split
  · rename_i j hk
    obtain ⟨l1, l2, hl, hset⟩ := split_at hk
    have hrun : (m.workers.set k .idle).filterMap Worker.job? =
        l1.filterMap Worker.job? ++ l2.filterMap Worker.job? := by
      rw [hset, List.filterMap_append, List.filterMap_cons]; rfl
    have hrun0 : m.running = l1.filterMap Worker.job? ++ j :: l2.filterMap Worker.job? := by
      unfold Mp.running
      rw [hl, List.filterMap_append, List.filterMap_cons]; rfl
    have hperm : m.running.Perm (j :: (m.workers.set k .idle).filterMap Worker.job?) := by
      rw [hrun, hrun0]; exact List.perm_middle
    have hst : (m.workers.set k .idle).countP Worker.isStopped = m.stopped := by
      unfold Mp.stopped; rw [hset, hl]; simp [Worker.isStopped]
    have hfl : (m.queued ++ (m.workers.set k .idle).filterMap Worker.job? ++ (m.respQ ++ [(j, x)]).map Prod.fst).length
        = m.inFlight.length := by
      unfold Mp.inFlight
      have := hperm.length_eq
      simp only [List.length_append, List.length_cons, List.map_append, List.map_cons, List.map_nil, List.length_nil] at this ⊢
      omega
    have hne : m.inFlight ≠ [] := by
      intro hc
      rw [Mp.inFlight, hrun0] at hc; simp at hc
    refine ⟨⟨h.base.pos, ?_, ?_, ?_⟩, ?_⟩
    · show (gotJobs m.log).Perm (j :: ((ranJobs m.log).map Prod.fst) ++
        (m.queued ++ (m.workers.set k .idle).filterMap Worker.job?))
      refine h.base.got.trans ?_
      rw [List.cons_append]
      have h1 : (m.queued ++ m.running).Perm (j :: (m.queued ++ (m.workers.set k .idle).filterMap Worker.job?)) :=
        (List.Perm.append_left _ hperm).trans List.perm_middle
      exact (List.Perm.append_left _ h1).trans List.perm_middle
    · show ((j, x) :: ranJobs m.log).Perm (processedJobs m.log ++ (m.respQ ++ [(j, x)]))
      refine (List.Perm.cons _ h.base.ran).trans ?_
      rw [← List.append_assoc]
      exact (List.perm_append_singleton _ _).symm
    · simpa using h.base.workers
    · have hp := h.phase
      show PInv _ m.phase
      cases hph : m.phase with
      | looping => rw [hph] at hp; exact ⟨hp.1.trans hfl.symm, hp.2.1, hst.trans hp.2.2.1, hp.2.2.2⟩
      | waiting => rw [hph] at hp; exact ⟨hp.1.trans hfl.symm, hp.2.1, hst.trans hp.2.2.1, hp.2.2.2⟩
      | finishing exc =>
        rw [hph] at hp
        refine ⟨?_, hfl.symm ▸ hp.2.1, fun he => absurd (hp.2.2 he).1 hne⟩
        show m.signals + (m.workers.set k .idle).countP Worker.isStopped = m.number
        rw [hst]; exact hp.1
      | returned exc =>
        rw [hph] at hp
        refine ⟨?_, hfl.symm ▸ hp.2.1, hst.trans hp.2.2.1, fun he => absurd (hp.2.2.2 he).1 hne⟩
        show m.signals + (m.workers.set k .idle).countP Worker.isStopped = m.number
        rw [hst]; exact hp.1
  · exact h

theorem MInv.step {m : Mp σ J X E} (h : MInv m) (S : Source σ J X ε E) (s : Step X ε) : MInv (m.step S s) := by
  cases s with
  | mgr e => exact h.mgr S e
  | take k => exact h.take k
  | finishJob k x => exact h.finishJob k x

theorem MInv.run {m : Mp σ J X E} (h : MInv m) (S : Source σ J X ε E) (l : List (Step X ε)) : MInv (m.run S l) := by
  induction l generalizing m with
  | nil => exact h
  | cons s l ih => exact ih (h.step S s)

/-! ### Progress -/

def Phase.weight (n : Nat) : Phase E → Nat
  | .looping => n + 3
  | .waiting => n + 2
  | .finishing _ => 1
  | .returned _ => 0

/-- Work left to do with the jobs handed out so far. -/
def Mp.work (m : Mp σ J X E) : Nat :=
  6 * m.queued.length + 5 * m.running.length + 4 * m.respQ.length + m.signals + m.phase.weight m.number

theorem work_beginFinish (m : Mp σ J X E) (exc : Option E) (hp : m.phase = .looping ∨ m.phase = .waiting) :
    (m.beginFinish exc).work < m.work := by
  have h1 : (m.beginFinish exc).signals = m.signals + m.number := by
    simp [Mp.signals, Mp.beginFinish, List.countP_replicate]
  unfold Mp.work
  rw [beginFinish_queued, h1]
  show 6 * m.queued.length + 5 * m.running.length + 4 * m.respQ.length + (m.signals + m.number) + 1 <
    6 * m.queued.length + 5 * m.running.length + 4 * m.respQ.length + m.signals + m.phase.weight m.number
  rcases hp with hp | hp <;> rw [hp] <;> simp only [Phase.weight] <;> omega

theorem work_afterGet (m : Mp σ J X E) (hp : m.phase = .looping) : m.afterGet.work < m.work := by
  unfold Mp.afterGet
  split
  · exact work_beginFinish m none (Or.inl hp)
  · unfold Mp.work
    rw [hp]
    show 6 * m.queued.length + 5 * m.running.length + 4 * m.respQ.length + m.signals + (m.number + 2) <
      6 * m.queued.length + 5 * m.running.length + 4 * m.respQ.length + m.signals + (m.number + 3)
    omega

/-- A step does nothing, or uses up work, or is the handing out of one job. -/
def Prog (m m' : Mp σ J X E) : Prop :=
    m' = m ∨
    (m'.work < m.work ∧ (gotJobs m'.log).length = (gotJobs m.log).length) ∨
    (m'.work = m.work + 6 ∧ (gotJobs m'.log).length = (gotJobs m.log).length + 1)

theorem step_progress (S : Source σ J X ε E) (m : Mp σ J X E) (s : Step X ε) : Prog m (m.step S s) := by
  have hafter : ∀ m : Mp σ J X E, gotJobs m.afterGet.log = gotJobs m.log := by
    intro m; unfold Mp.afterGet; split <;> rfl
  cases s with
  | mgr e =>
    show Prog m (m.mgr S e)
    unfold Mp.mgr
    cases hph : m.phase with
    | looping =>
      simp only
      unfold Mp.topOfLoop
      split
      · rcases hg : S.getJob e m.src with ⟨x | _ | j, s⟩
        · exact Or.inr (Or.inl ⟨work_beginFinish { m with src := s } _ (Or.inl hph), rfl⟩)
        · refine Or.inr (Or.inl ⟨work_afterGet { m with src := s, log := .nothing :: m.log } hph, ?_⟩)
          rw [hafter]; rfl
        · refine Or.inr (Or.inr ⟨?_, rfl⟩)
          show 6 * ((m.jobQ ++ [some j]).filterMap id).length + 5 * m.running.length + 4 * m.respQ.length +
            (m.jobQ ++ [some j]).countP Option.isNone + m.phase.weight m.number = m.work + 6
          unfold Mp.work Mp.queued Mp.signals
          simp; omega
      · exact Or.inr (Or.inl ⟨work_afterGet m hph, by rw [hafter]⟩)
    | waiting =>
      simp only
      have key : ∀ (j : J) (x : Option X) (rest : List (J × Option X)) (c : Call J X) (s : σ) (r : Except E Unit),
          m.respQ = (j, x) :: rest → gotJobs (c :: m.log) = gotJobs m.log →
          (Mp.endOfLoop { m with respQ := rest, src := s, log := c :: m.log } r).work < m.work ∧
          (gotJobs (Mp.endOfLoop { m with respQ := rest, src := s, log := c :: m.log } r).log).length =
            (gotJobs m.log).length := by
        intro j x rest c s r hq hg
        have h0 : m.work = 6 * m.queued.length + 5 * m.running.length + 4 * (rest.length + 1) + m.signals + (m.number + 2) := by
          unfold Mp.work; rw [hph, hq]; rfl
        cases r with
        | ok _ =>
          refine ⟨?_, congrArg List.length hg⟩
          rw [h0]
          show 6 * m.queued.length + 5 * m.running.length + 4 * rest.length + m.signals + (m.number + 3) < _
          omega
        | error x' =>
          refine ⟨?_, congrArg List.length hg⟩
          refine Nat.lt_of_lt_of_le
            (work_beginFinish { m with respQ := rest, src := s, log := c :: m.log } (some x') (Or.inr hph)) ?_
          rw [h0]
          show 6 * m.queued.length + 5 * m.running.length + 4 * rest.length + m.signals + m.phase.weight m.number ≤ _
          rw [hph]; simp only [Phase.weight]; omega
      unfold Mp.takeResponse
      rcases hq : m.respQ with _ | ⟨⟨j, _ | x⟩, rest⟩
      · exact Or.inl rfl
      · exact Or.inr (Or.inl (key j none rest _ _ _ hq rfl))
      · exact Or.inr (Or.inl (key j (some x) rest _ _ _ hq rfl))
    | finishing exc =>
      simp only
      split
      · refine Or.inr (Or.inl ⟨?_, rfl⟩)
        unfold Mp.work
        rw [hph]
        show 6 * m.queued.length + 5 * m.running.length + 4 * m.respQ.length + m.signals + 0 <
          6 * m.queued.length + 5 * m.running.length + 4 * m.respQ.length + m.signals + 1
        omega
      · exact Or.inl rfl
    | returned exc => exact Or.inl rfl
  | take k =>
    show Prog m (m.take k)
    unfold Mp.take
    split
    · rename_i j q hk hq
      obtain ⟨l1, l2, hl, hset⟩ := split_at hk
      refine Or.inr (Or.inl ⟨?_, rfl⟩)
      show 6 * (q.filterMap id).length + 5 * ((m.workers.set k (.busy j)).filterMap Worker.job?).length +
        4 * m.respQ.length + q.countP Option.isNone + m.phase.weight m.number < m.work
      unfold Mp.work Mp.queued Mp.running Mp.signals
      rw [hset, hl, hq]
      simp only [List.filterMap_append, List.filterMap_cons, List.length_append, Worker.job?, id, List.length_cons,
        List.countP_cons, Option.isNone]
      simp; omega
    · rename_i q hk hq
      obtain ⟨l1, l2, hl, hset⟩ := split_at hk
      refine Or.inr (Or.inl ⟨?_, rfl⟩)
      show 6 * (q.filterMap id).length + 5 * ((m.workers.set k .stopped).filterMap Worker.job?).length +
        4 * m.respQ.length + q.countP Option.isNone + m.phase.weight m.number < m.work
      unfold Mp.work Mp.queued Mp.running Mp.signals
      rw [hset, hl, hq]
      simp only [List.filterMap_append, List.filterMap_cons, List.length_append, Worker.job?, id,
        List.countP_cons, Option.isNone]
      simp
    · exact Or.inl rfl
  | finishJob k x =>
    show Prog m (m.finishJob k x)
    unfold Mp.finishJob
    split
    · rename_i j hk
      obtain ⟨l1, l2, hl, hset⟩ := split_at hk
      refine Or.inr (Or.inl ⟨?_, rfl⟩)
      show 6 * m.queued.length + 5 * ((m.workers.set k .idle).filterMap Worker.job?).length +
        4 * (m.respQ ++ [(j, x)]).length + m.signals + m.phase.weight m.number < m.work
      unfold Mp.work Mp.running
      rw [hset, hl]
      simp only [List.filterMap_append, List.filterMap_cons, List.length_append, Worker.job?, List.length_cons,
        List.length_nil]
      omega
    · exact Or.inl rfl

theorem effective_bound (S : Source σ J X ε E) (l : List (Step X ε)) : ∀ (m : Mp σ J X E), Effective S m l →
    l.length + 7 * (gotJobs m.log).length + (m.run S l).work ≤ m.work + 7 * (gotJobs (m.run S l).log).length := by
  induction l with
  | nil => intro m _; simp [Mp.run]; omega
  | cons s l ih =>
    intro m ⟨h1, h2⟩
    have := ih _ h2
    have hr : m.run S (s :: l) = (m.step S s).run S l := rfl
    rw [hr, List.length_cons]
    rcases step_progress S m s with h | ⟨h, h'⟩ | ⟨h, h'⟩
    · exact absurd h h1
    · omega
    · omega

/-! ### Using the job manager: properties of the source -/

/-- `P s fl`: the source in state `s`, with jobs `fl` handed out and not yet reported back. If every call preserves it,
it holds throughout any run, until the source raises. -/
structure Preserves (S : Source σ J X ε E) (P : σ → List J → Prop) : Prop where
  perm : ∀ {s fl fl'}, P s fl → fl.Perm fl' → P s fl'
  none : ∀ {e s s' fl}, P s fl → S.getJob e s = (.ok none, s') → P s' fl
  some : ∀ {e s s' fl j}, P s fl → S.getJob e s = (.ok (some j), s') → P s' (j :: fl)
  response : ∀ {e s s' fl j x u}, P s (j :: fl) → S.processResponse e j x s = (.ok u, s') → P s' fl
  error : ∀ {e s s' fl j u}, P s (j :: fl) → S.processError e j s = (.ok u, s') → P s' fl

/-- The states in which the source hasn't raised. -/
def Phase.fine : Phase E → Prop
  | .looping => True
  | .waiting => True
  | .finishing exc => exc = none
  | .returned exc => exc = none

theorem take_inFlight (m : Mp σ J X E) (k : Nat) : (m.take k).inFlight.Perm m.inFlight := by
  unfold Mp.take
  split
  · rename_i j q hk hq
    obtain ⟨l1, l2, hl, hset⟩ := split_at hk
    show (q.filterMap id ++ (m.workers.set k (.busy j)).filterMap Worker.job? ++ m.respQ.map Prod.fst).Perm m.inFlight
    unfold Mp.inFlight Mp.queued Mp.running
    rw [hset, hl, hq]
    simp only [List.filterMap_append, List.filterMap_cons, Worker.job?, id]
    apply List.Perm.append_right
    rw [List.cons_append, ← List.append_assoc, ← List.append_assoc]
    exact List.perm_middle
  · rename_i q hk hq
    obtain ⟨l1, l2, hl, hset⟩ := split_at hk
    show (q.filterMap id ++ (m.workers.set k .stopped).filterMap Worker.job? ++ m.respQ.map Prod.fst).Perm m.inFlight
    unfold Mp.inFlight Mp.queued Mp.running
    rw [hset, hl, hq]
    simp [List.filterMap_cons, Worker.job?]
  · exact List.Perm.refl _

theorem finishJob_inFlight (m : Mp σ J X E) (k : Nat) (x : Option X) : (m.finishJob k x).inFlight.Perm m.inFlight := by
  unfold Mp.finishJob
  split
  · rename_i j hk
    obtain ⟨l1, l2, hl, hset⟩ := split_at hk
    show (m.queued ++ (m.workers.set k .idle).filterMap Worker.job? ++ (m.respQ ++ [(j, x)]).map Prod.fst).Perm m.inFlight
    unfold Mp.inFlight Mp.running
    rw [hset, hl]
    simp only [List.filterMap_append, List.filterMap_cons, Worker.job?, List.map_append, List.map_cons, List.map_nil]
    rw [← List.append_assoc]
    refine (List.perm_append_singleton _ _).trans ?_
    rw [← List.cons_append]
    apply List.Perm.append_right
    rw [← List.append_assoc, ← List.append_assoc]
    exact List.perm_middle.symm
  · exact List.Perm.refl _

theorem take_src (m : Mp σ J X E) (k : Nat) : (m.take k).src = m.src ∧ (m.take k).phase = m.phase := by
  unfold Mp.take
  split <;> exact ⟨rfl, rfl⟩

theorem finishJob_src (m : Mp σ J X E) (k : Nat) (x : Option X) :
    (m.finishJob k x).src = m.src ∧ (m.finishJob k x).phase = m.phase := by
  unfold Mp.finishJob
  split <;> exact ⟨rfl, rfl⟩

theorem afterGet_inFlight (m : Mp σ J X E) : m.afterGet.inFlight = m.inFlight ∧ m.afterGet.src = m.src := by
  unfold Mp.afterGet
  split
  · exact ⟨beginFinish_inFlight m none, rfl⟩
  · exact ⟨rfl, rfl⟩

theorem preserved_mgr {S : Source σ J X ε E} {P : σ → List J → Prop} (hP : Preserves S P) {m : Mp σ J X E} (e : ε)
    (h : m.phase.fine → P m.src m.inFlight) : (m.mgr S e).phase.fine → P (m.mgr S e).src (m.mgr S e).inFlight := by
  unfold Mp.mgr
  cases hph : m.phase with
  | looping =>
    have h0 := h (by rw [hph]; trivial)
    simp only
    unfold Mp.topOfLoop
    split
    · rcases hg : S.getJob e m.src with ⟨x | _ | j, s⟩
      · intro hf; exact absurd hf (by simp [Mp.beginFinish, Phase.fine])
      · intro _
        simp only
        obtain ⟨h1, h2⟩ := afterGet_inFlight { m with src := s, log := .nothing :: m.log }
        rw [h1, h2]
        exact hP.none h0 hg
      · intro _
        refine hP.perm (hP.some h0 hg) ?_
        show (j :: m.inFlight).Perm ((m.jobQ ++ [some j]).filterMap id ++ m.running ++ m.respQ.map Prod.fst)
        unfold Mp.inFlight Mp.queued
        simp only [List.filterMap_append, List.filterMap_cons, List.filterMap_nil, id, List.append_assoc,
          List.singleton_append]
        exact List.perm_middle.symm
    · intro _
      obtain ⟨h1, h2⟩ := afterGet_inFlight m
      rw [h1, h2]; exact h0
  | waiting =>
    have h0 := h (by rw [hph]; trivial)
    simp only
    unfold Mp.takeResponse
    have key : ∀ (j : J) (x : Option X) (rest : List (J × Option X)) (c : Call J X) (r : Except E Unit × σ),
        m.respQ = (j, x) :: rest → (∀ fl u, P m.src (j :: fl) → r.1 = .ok u → P r.2 fl) →
        (Mp.endOfLoop { m with respQ := rest, src := r.2, log := c :: m.log } r.1).phase.fine →
        P (Mp.endOfLoop { m with respQ := rest, src := r.2, log := c :: m.log } r.1).src
          (Mp.endOfLoop { m with respQ := rest, src := r.2, log := c :: m.log } r.1).inFlight := by
      intro j x rest c r hq hstep
      obtain ⟨r1, r2⟩ := r
      cases r1 with
      | error x' => intro hf; exact absurd hf (by simp [Mp.endOfLoop, Mp.beginFinish, Phase.fine])
      | ok u =>
        intro _
        refine hstep _ u ?_ rfl
        refine hP.perm h0 ?_
        show m.inFlight.Perm (j :: (m.queued ++ m.running ++ rest.map Prod.fst))
        unfold Mp.inFlight
        rw [hq]
        exact List.perm_middle
    rcases hq : m.respQ with _ | ⟨⟨j, _ | x⟩, rest⟩
    · intro _; exact h0
    · refine key j none rest _ (S.processError e j m.src) hq ?_
      intro fl u hp hok
      exact hP.error hp (e := e) (u := u) (Prod.ext hok rfl)
    · refine key j (some x) rest _ (S.processResponse e j x m.src) hq ?_
      intro fl u hp hok
      exact hP.response hp (e := e) (x := x) (u := u) (Prod.ext hok rfl)
  | finishing exc =>
    simp only
    split
    · intro hf
      exact h (by rw [hph]; exact hf)
    · exact h
  | returned exc => exact h

theorem preserved_step {S : Source σ J X ε E} {P : σ → List J → Prop} (hP : Preserves S P) {m : Mp σ J X E} (s : Step X ε)
    (h : m.phase.fine → P m.src m.inFlight) : (m.step S s).phase.fine → P (m.step S s).src (m.step S s).inFlight := by
  cases s with
  | mgr e => exact preserved_mgr hP e h
  | take k =>
    intro hf
    show P (m.take k).src (m.take k).inFlight
    have := take_src m k
    rw [this.1]
    exact hP.perm (h (this.2 ▸ hf)) (take_inFlight m k).symm
  | finishJob k x =>
    intro hf
    show P (m.finishJob k x).src (m.finishJob k x).inFlight
    have := finishJob_src m k x
    rw [this.1]
    exact hP.perm (h (this.2 ▸ hf)) (finishJob_inFlight m k x).symm

theorem preserved_run {S : Source σ J X ε E} {P : σ → List J → Prop} (hP : Preserves S P) (l : List (Step X ε)) :
    ∀ {m : Mp σ J X E}, (m.phase.fine → P m.src m.inFlight) → (m.run S l).phase.fine → P (m.run S l).src (m.run S l).inFlight := by
  induction l with
  | nil => intro m h; exact h
  | cons s l ih => intro m h; exact ih (preserved_step hP s h)

end Gomill.Jobs
