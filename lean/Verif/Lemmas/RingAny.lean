import Verif.Lemmas.Jobs
import Verif.Spec.RingAny
/-
Invariants of a ringmaster running any competition.
-/
namespace Gomill.Jobs
variable {σ J X ε E : Type}

/-- The run is over, or will be when the workers have finished, with no exception. -/
def Phase.over : Phase E → Prop
  | .finishing exc => exc = none
  | .returned exc => exc = none
  | _ => False

/-- `P` is preserved while nothing is raised, `Q` holds always, and `R` when the source has no more jobs. -/
structure Keeps (S : Source σ J X ε E) (P : σ → List J → Prop) (Q R : σ → Prop) : Prop extends Preserves S P where
  always : ∀ {s fl}, P s fl → Q s
  getErr : ∀ {e s s' fl x}, P s fl → S.getJob e s = (.error x, s') → Q s'
  respErr : ∀ {e s s' fl j x y}, P s (j :: fl) → S.processResponse e j x s = (.error y, s') → Q s'
  errErr : ∀ {e s s' fl j y}, P s (j :: fl) → S.processError e j s = (.error y, s') → Q s'
  atEnd : ∀ {e s s' fl}, P s fl → S.getJob e s = (.ok Option.none, s') → R s'

structure Kept (P : σ → List J → Prop) (Q R : σ → Prop) (m : Mp σ J X E) : Prop where
  inv : MInv m
  fine : m.phase.fine → P m.src m.inFlight
  always : Q m.src
  over : m.phase.over → R m.src

theorem beginFinish_src (m : Mp σ J X E) (exc : Option E) : (m.beginFinish exc).src = m.src := rfl

theorem kept_step {S : Source σ J X ε E} {P : σ → List J → Prop} {Q R : σ → Prop} (hK : Keeps S P Q R) {m : Mp σ J X E}
    (h : Kept P Q R m) (s : Step X ε) : Kept P Q R (m.step S s) := by
  have hinv := h.inv.step S s
  have hfine := preserved_step hK.toPreserves s h.fine
  suffices hs : Q (m.step S s).src ∧ ((m.step S s).phase.over → R (m.step S s).src) from ⟨hinv, hfine, hs.1, hs.2⟩
  cases s with
  | take k =>
    show Q (m.take k).src ∧ ((m.take k).phase.over → R (m.take k).src)
    rw [(take_src m k).1, (take_src m k).2]; exact ⟨h.always, h.over⟩
  | finishJob k x =>
    show Q (m.finishJob k x).src ∧ ((m.finishJob k x).phase.over → R (m.finishJob k x).src)
    rw [(finishJob_src m k x).1, (finishJob_src m k x).2]; exact ⟨h.always, h.over⟩
  | mgr e =>
    show Q (m.mgr S e).src ∧ ((m.mgr S e).phase.over → R (m.mgr S e).src)
    unfold Mp.mgr
    cases hph : m.phase with
    | looping =>
      have hP := h.fine (by rw [hph]; trivial)
      simp only
      unfold Mp.topOfLoop
      split
      · rcases hg : S.getJob e m.src with ⟨x | _ | j, s⟩
        · exact ⟨hK.getErr hP hg, fun hf => absurd hf (by simp [Mp.beginFinish, Phase.over])⟩
        · simp only
          rw [(afterGet_inFlight _).2]
          exact ⟨hK.always (hK.none hP hg), fun _ => hK.atEnd hP hg⟩
        · exact ⟨hK.always (hK.some hP hg), fun hf => absurd (hph ▸ hf : (Phase.looping : Phase E).over) id⟩
      · rename_i hlt
        have hp := h.inv.phase
        rw [hph] at hp
        have hpos := h.inv.base.pos
        unfold Mp.afterGet
        rw [if_neg (by omega)]
        exact ⟨h.always, fun hf => absurd hf id⟩
    | waiting =>
      have hP := h.fine (by rw [hph]; trivial)
      simp only
      unfold Mp.takeResponse
      split
      · exact ⟨h.always, fun hf => absurd (hph ▸ hf : (Phase.waiting : Phase E).over) id⟩
      · rename_i j rest hq
        have hP' : P m.src (j :: (m.queued ++ m.running ++ rest.map Prod.fst)) := by
          refine hK.perm hP ?_
          unfold Mp.inFlight; rw [hq]
          exact List.perm_middle
        rcases hr : S.processError e j m.src with ⟨x | _, s⟩
        · exact ⟨hK.errErr hP' hr, fun hf => absurd hf (by simp [Mp.endOfLoop, Mp.beginFinish, Phase.over])⟩
        · exact ⟨hK.always (hK.error hP' hr), fun hf => absurd hf (by simp [Mp.endOfLoop, Phase.over])⟩
      · rename_i j x rest hq
        have hP' : P m.src (j :: (m.queued ++ m.running ++ rest.map Prod.fst)) := by
          refine hK.perm hP ?_
          unfold Mp.inFlight; rw [hq]
          exact List.perm_middle
        rcases hr : S.processResponse e j x m.src with ⟨y | _, s⟩
        · exact ⟨hK.respErr hP' hr, fun hf => absurd hf (by simp [Mp.endOfLoop, Mp.beginFinish, Phase.over])⟩
        · exact ⟨hK.always (hK.response hP' hr), fun hf => absurd hf (by simp [Mp.endOfLoop, Phase.over])⟩
    | finishing exc =>
      simp only
      have ho := h.over
      rw [hph] at ho
      split
      · exact ⟨h.always, ho⟩
      · rw [hph]; exact ⟨h.always, ho⟩
    | returned exc =>
      simp only
      have ho := h.over
      rw [hph] at ho ⊢
      exact ⟨h.always, ho⟩

theorem kept_run {S : Source σ J X ε E} {P : σ → List J → Prop} {Q R : σ → Prop} (hK : Keeps S P Q R) (l : List (Step X ε)) :
    ∀ {m : Mp σ J X E}, Kept P Q R m → Kept P Q R (m.run S l) := by
  induction l with
  | nil => intro m h; exact h
  | cons s l ih => intro m h; exact ih (kept_step hK h s)

/-! ### The in-process manager -/

/-- A run without worker processes behaves as a run with a single worker (in a certain interleaving). -/
theorem in_process_sim (S : Source σ J X ε E) (l : List (ε × ε × Option X)) : ∀ (a : Ip σ J X E) (m : Mp σ J X E),
    (m.src = a.src ∧ m.log = a.log ∧ m.number = 1 ∧
      ((a.over = none ∧ m.phase = .looping ∧ m.active = 0 ∧ m.jobQ = [] ∧ m.workers = [.idle] ∧ m.respQ = []) ∨
       (∃ exc, a.over = some exc ∧ m.phase = .returned exc))) →
    ∃ steps, ((m.run S steps).src = (a.run S l).src ∧ (m.run S steps).log = (a.run S l).log ∧ (m.run S steps).number = 1 ∧
      (((a.run S l).over = none ∧ (m.run S steps).phase = .looping ∧ (m.run S steps).active = 0 ∧ (m.run S steps).jobQ = [] ∧
          (m.run S steps).workers = [.idle] ∧ (m.run S steps).respQ = []) ∨
       (∃ exc, (a.run S l).over = some exc ∧ (m.run S steps).phase = .returned exc))) := by
  induction l with
  | nil => intro a m h; exact ⟨[], h⟩
  | cons b l ih =>
    intro a m h
    suffices hs : ∃ steps, ((m.run S steps).src = (a.step S b).src ∧ (m.run S steps).log = (a.step S b).log ∧
        (m.run S steps).number = 1 ∧
        (((a.step S b).over = none ∧ (m.run S steps).phase = .looping ∧ (m.run S steps).active = 0 ∧
          (m.run S steps).jobQ = [] ∧ (m.run S steps).workers = [.idle] ∧ (m.run S steps).respQ = []) ∨
         (∃ exc, (a.step S b).over = some exc ∧ (m.run S steps).phase = .returned exc))) by
      obtain ⟨steps, hs⟩ := hs
      obtain ⟨steps', h'⟩ := ih _ _ hs
      refine ⟨steps ++ steps', ?_⟩
      have e : m.run S (steps ++ steps') = (m.run S steps).run S steps' := by
        unfold Mp.run; rw [List.foldl_append]
      rw [e]; exact h'
    obtain ⟨h1, h2, h3, h4⟩ := h
    rcases h4 with ⟨ho, hph, hact, hj, hw, hr⟩ | ⟨exc, ho, hph⟩
    · rcases m with ⟨src, number, active, jobQ, workers, respQ, phase, log⟩
      rcases a with ⟨asrc, over, alog⟩
      simp only at h1 h2 h3 ho hph hact hj hw hr
      subst h1 h2 h3 ho hph hact hj hw hr
      rcases hg : S.getJob b.1 src with ⟨x | _ | j, s⟩
      · refine ⟨[.mgr b.1, .take 0, .mgr b.1], ?_⟩
        simp [Mp.run, Mp.step, Mp.mgr, Mp.topOfLoop, hg, Mp.beginFinish, Mp.take, Worker.isStopped, Ip.step]
      · refine ⟨[.mgr b.1, .take 0, .mgr b.1], ?_⟩
        simp [Mp.run, Mp.step, Mp.mgr, Mp.topOfLoop, hg, Mp.beginFinish, Mp.take, Worker.isStopped, Ip.step, Mp.afterGet]
      · cases hx : b.2.2 with
        | none =>
          rcases hp : S.processError b.2.1 j s with ⟨y | _, s'⟩
          · refine ⟨[.mgr b.1, .mgr b.1, .take 0, .finishJob 0 none, .mgr b.2.1, .take 0, .mgr b.1], ?_⟩
            simp [Mp.run, Mp.step, Mp.mgr, Mp.topOfLoop, hg, hp, hx, Mp.beginFinish, Mp.take, Mp.finishJob, Mp.takeResponse,
              Mp.endOfLoop, Worker.isStopped, Ip.step, Ip.runJob, Mp.afterGet]
          · refine ⟨[.mgr b.1, .mgr b.1, .take 0, .finishJob 0 none, .mgr b.2.1], ?_⟩
            simp [Mp.run, Mp.step, Mp.mgr, Mp.topOfLoop, hg, hp, hx, Mp.take, Mp.finishJob, Mp.takeResponse,
              Mp.endOfLoop, Ip.step, Ip.runJob, Mp.afterGet]
        | some x =>
          rcases hp : S.processResponse b.2.1 j x s with ⟨y | _, s'⟩
          · refine ⟨[.mgr b.1, .mgr b.1, .take 0, .finishJob 0 (some x), .mgr b.2.1, .take 0, .mgr b.1], ?_⟩
            simp [Mp.run, Mp.step, Mp.mgr, Mp.topOfLoop, hg, hp, hx, Mp.beginFinish, Mp.take, Mp.finishJob, Mp.takeResponse,
              Mp.endOfLoop, Worker.isStopped, Ip.step, Ip.runJob, Mp.afterGet]
          · refine ⟨[.mgr b.1, .mgr b.1, .take 0, .finishJob 0 (some x), .mgr b.2.1], ?_⟩
            simp [Mp.run, Mp.step, Mp.mgr, Mp.topOfLoop, hg, hp, hx, Mp.take, Mp.finishJob, Mp.takeResponse,
              Mp.endOfLoop, Ip.step, Ip.runJob, Mp.afterGet]
    · refine ⟨[], ?_⟩
      have e : a.step S b = a := by unfold Ip.step; rw [ho]
      rw [e]
      exact ⟨h1, h2, h3, Or.inr ⟨exc, ho, hph⟩⟩

end Gomill.Jobs

namespace Gomill.Ring
open Jobs
variable {σ J X η V E : Type}

/-! ### Lists of jobs as dicts -/

theorem filter_fresh {id : J → Str} {d : List J} {i : Str} (h : i ∉ d.map id) : d.filter (fun j' => id j' ≠ i) = d := by
  refine List.filter_eq_self.2 (fun a ha => ?_)
  simp only [ne_eq, decide_eq_true_eq]
  intro e; exact h (e ▸ List.mem_map_of_mem ha)

theorem pop_perm {id : J → Str} : ∀ {d : List J} {j : J}, (d.map id).Nodup → j ∈ d →
    (j :: d.filter (fun j' => id j' ≠ id j)).Perm d := by
  intro d
  induction d with
  | nil => intro j _ h; cases h
  | cons a d ih =>
    intro j hn hj
    rw [List.map_cons, List.nodup_cons] at hn
    rcases List.mem_cons.1 hj with rfl | hj
    · rw [List.filter_cons, if_neg (by simp), filter_fresh hn.1]
    · have hne : id a ≠ id j := fun e => hn.1 (e ▸ List.mem_map_of_mem hj)
      rw [List.filter_cons, if_pos (by simpa using hne)]
      exact (List.Perm.swap a j _).trans ((ih hn.2 hj).cons a)

theorem find_mem {id : J → Str} : ∀ {d : List J} {j : J}, (d.map id).Nodup → j ∈ d →
    d.find? (fun j' => id j' = id j) = some j := by
  intro d
  induction d with
  | nil => intro j _ h; cases h
  | cons a d ih =>
    intro j hn hj
    rw [List.map_cons, List.nodup_cons] at hn
    rcases List.mem_cons.1 hj with rfl | hj
    · rw [List.find?_cons_of_pos (by simp)]
    · have hne : id a ≠ id j := fun e => hn.1 (e ▸ List.mem_map_of_mem hj)
      rw [List.find?_cons_of_neg (by simpa using hne)]
      exact ih hn.2 hj

theorem popJob_mem (C : Competition σ J X η V E) {d : List J} {j : J} (hn : (d.map C.gameId).Nodup) (hj : j ∈ d) :
    popJob C d (C.gameId j) = some (j, d.filter (fun j' => C.gameId j' ≠ C.gameId j)) := by
  unfold popJob; rw [find_mem hn hj]

theorem storeJob_fresh (C : Competition σ J X η V E) {d : List J} {j : J} (h : C.gameId j ∉ d.map C.gameId) :
    storeJob C d j = d ++ [j] := by
  unfold storeJob; rw [filter_fresh h]

theorem lookup_filter_ne' (l : List (Str × Nat)) (i k : Str) :
    (l.filter (fun p => p.1 ≠ i)).lookup k = if k = i then none else l.lookup k := by
  induction l with
  | nil => simp
  | cons p l ih =>
    rcases p with ⟨a, n⟩
    rw [List.filter_cons]
    by_cases ha : a = i
    · subst ha
      rw [if_neg (by simp), ih]
      by_cases hk : k = a
      · rw [if_pos hk, if_pos hk]
      · rw [if_neg hk, if_neg hk, List.lookup_cons, beq_eq_false_iff_ne.2 hk]
    · rw [if_pos (by simpa using ha), List.lookup_cons, List.lookup_cons, ih]
      by_cases hk : k = a
      · subst hk; rw [beq_self_eq_true]; simp only; rw [if_neg ha]
      · rw [beq_eq_false_iff_ne.2 hk]

theorem errorCount_filter (l : List (Str × Nat)) (i k : Str) :
    errorCount (l.filter (fun p => p.1 ≠ i)) k = if k = i then 0 else errorCount l k := by
  unfold errorCount; rw [lookup_filter_ne']; split <;> rfl

theorem errorCount_set (l : List (Str × Nat)) (i k : Str) (n : Nat) :
    errorCount ((i, n) :: l.filter (fun p => p.1 ≠ i)) k = if k = i then n else errorCount l k := by
  by_cases hk : k = i
  · subst hk; unfold errorCount; rw [List.lookup_cons_self, if_pos rfl]; rfl
  · have : errorCount ((i, n) :: l.filter (fun p => p.1 ≠ i)) k = errorCount (l.filter (fun p => p.1 ≠ i)) k := by
      unfold errorCount; rw [List.lookup_cons, beq_eq_false_iff_ne.2 hk]
    rw [this, errorCount_filter, if_neg hk, if_neg hk]

/-! ### The invariant -/

structure RInv (C : Competition σ J X η V E) (v0 : Nat) (d0 : Option (Nat × V)) (mg : Option Int) (s : RM σ J X V E) (fl : List J) : Prop where
  flight : fl.Perm s.inProgress
  nodup : ((s.inProgress ++ s.toReplay).map C.gameId).Nodup
  playing : (playing C.gameId s.acts).Perm s.inProgress
  waiting : (waiting C.gameId s.acts).Perm s.toReplay
  stop : s.stopping = true ↔ Stopped s.acts
  counts : ∀ i, errorCount s.errorCounts i = failures C.gameId i s.acts
  order : AllInOrder C.gameId s.acts
  void : s.voidGameCount = v0 + voids s.acts
  disk : s.disk = statusFile C.save v0 d0 s.acts
  max : ∀ k : Nat, mg = some (k : Int) → ∃ c : Nat, s.maxGames = some (c : Int) ∧ starts s.acts + c ≤ k
  fine : ∀ a ∈ s.acts, (∀ e, a ≠ .raised e) ∧ ∀ j, a ≠ .clash j

/-- What holds even after an exception. -/
structure QInv (C : Competition σ J X η V E) (v0 : Nat) (d0 : Option (Nat × V)) (mg : Option Int) (s : RM σ J X V E) : Prop where
  order : AllInOrder C.gameId s.acts
  disk : s.disk = statusFile C.save v0 d0 s.acts ∨ s.disk = statusFile C.save v0 d0 s.acts.tail
  max : ∀ k : Nat, mg = some (k : Int) → starts s.acts ≤ k
  void : s.voidGameCount = v0 + voids s.acts ∨ s.voidGameCount = v0 + voids s.acts + 1
  fine : ∀ a ∈ s.acts.tail, (∀ e, a ≠ .raised e) ∧ ∀ j, a ≠ .clash j

/-- What holds when there are no more jobs. -/
def AtEnd (C : Competition σ J X η V E) (s : RM σ J X V E) : Prop :=
  Stopped s.acts ∨ (s.acts.head? = some .noGame ∧ waiting C.gameId s.acts = [])

variable {C : Competition σ J X η V E} {v0 : Nat} {d0 : Option (Nat × V)} {mg : Option Int}

theorem RInv.q {s : RM σ J X V E} {fl : List J} (h : RInv C v0 d0 mg s fl) : QInv C v0 d0 mg s :=
  ⟨h.order, Or.inl h.disk, fun k hk => by obtain ⟨c, _, h2⟩ := h.max k hk; omega, Or.inl h.void,
    fun a ha => h.fine a (List.mem_of_mem_tail ha)⟩

theorem RInv.comp {s : RM σ J X V E} {fl : List J} (h : RInv C v0 d0 mg s fl) (c : σ) :
    RInv C v0 d0 mg { s with comp := c } fl :=
  ⟨h.flight, h.nodup, h.playing, h.waiting, h.stop, h.counts, h.order, h.void, h.disk, h.max, h.fine⟩

theorem updateDisplay_ok {s s' : RM σ J X V E} {b : Bool} {e : η} {u : Unit}
    (h : s.updateDisplay C b e = (.ok u, s')) : ∃ c, s' = { s with comp := c } := by
  unfold RM.updateDisplay at h
  split at h
  · rcases hr : C.screenReport e s.comp with ⟨x | _, c⟩
    · rw [hr] at h; simp only [Prod.mk.injEq, reduceCtorEq, false_and] at h
    · rw [hr] at h; simp only [Prod.mk.injEq] at h; exact ⟨c, h.2.symm⟩
  · simp only [Prod.mk.injEq] at h; exact ⟨s.comp, h.2.symm⟩

theorem updateDisplay_err {s s' : RM σ J X V E} {b : Bool} {e : η} {y : RExc E}
    (h : s.updateDisplay C b e = (.error y, s')) : ∃ c x, s' = { s with comp := c, acts := .raised x :: s.acts } := by
  unfold RM.updateDisplay at h
  split at h
  · rcases hr : C.screenReport e s.comp with ⟨x | _, c⟩
    · rw [hr] at h; simp only [Prod.mk.injEq] at h; exact ⟨c, x, h.2.symm⟩
    · rw [hr] at h; simp only [Prod.mk.injEq, reduceCtorEq, false_and] at h
  · simp only [Prod.mk.injEq, reduceCtorEq, false_and] at h

theorem RInv.raised {s : RM σ J X V E} {fl : List J} (h : RInv C v0 d0 mg s fl) (c : σ) (x : E) :
    QInv C v0 d0 mg { s with comp := c, acts := .raised x :: s.acts } :=
  ⟨⟨trivial, h.order⟩, Or.inl h.disk, fun k hk => by obtain ⟨c, _, h2⟩ := h.max k hk; show starts s.acts ≤ k; omega, Or.inl h.void, h.fine⟩

/-- What `_get_job` can do. -/
def GetCases (C : Competition σ J X η V E) (v0 : Nat) (d0 : Option (Nat × V)) (mg : Option Int) (fl : List J) :
    Except (RExc E) (Option J) → RM σ J X V E → Prop
  | .error _, s => QInv C v0 d0 mg s
  | .ok none, s => RInv C v0 d0 mg s fl ∧ AtEnd C s
  | .ok (some j), s => RInv C v0 d0 mg s (j :: fl)

theorem nextJob_cases {s : RM σ J X V E} {fl : List J} (h : RInv C v0 d0 mg s fl) (hns : s.stopping = false) (m : Option Int)
    (hm : ∀ k : Nat, mg = some (k : Int) → ∃ c : Nat, m = some (c : Int) ∧ starts s.acts + c + 1 ≤ k) (e : Env η) :
    GetCases C v0 d0 mg fl (RM.nextJob C e { s with maxGames := m }).1 (RM.nextJob C e { s with maxGames := m }).2 := by
  have hst : ¬ Stopped s.acts := by rw [← h.stop, hns]; simp
  unfold RM.nextJob
  simp only
  cases hr : s.toReplay[e.pick % s.toReplay.length]? with
  | some j =>
    simp only
    have hj : j ∈ s.toReplay := List.mem_of_getElem? hr
    have hn := h.nodup
    rw [List.map_append, List.nodup_append] at hn
    obtain ⟨n1, n2, n3⟩ := hn
    have hfresh : C.gameId j ∉ s.inProgress.map C.gameId := fun hc => n3 _ hc _ (List.mem_map_of_mem hj) rfl
    have hpp := pop_perm n2 hj
    unfold RM.startJob
    refine ⟨?_, ?_, ?_, ?_, ?_, h.counts, ⟨⟨hst, h.waiting.mem_iff.2 hj⟩, h.order⟩, h.void, h.disk, ?_, ?_⟩
    · rw [storeJob_fresh C hfresh]
      exact (h.flight.cons j).trans (List.perm_append_singleton j _).symm
    · rw [storeJob_fresh C hfresh]
      have hp : (s.inProgress ++ [j] ++ s.toReplay.filter (fun j' => C.gameId j' ≠ C.gameId j)).Perm
          (s.inProgress ++ s.toReplay) := by
        rw [List.append_assoc, List.singleton_append]
        exact hpp.append_left _
      exact (hp.map C.gameId).nodup_iff.2 h.nodup
    · rw [storeJob_fresh C hfresh]
      exact (h.playing.cons j).trans (List.perm_append_singleton j _).symm
    · exact h.waiting.filter _
    · exact h.stop
    · intro k hk
      obtain ⟨c, h1, h2⟩ := hm k hk
      refine ⟨c, h1, ?_⟩
      show starts s.acts + 1 + c ≤ k
      omega
    · intro a ha
      rcases List.mem_cons.1 ha with rfl | ha
      · exact ⟨fun _ => by simp, fun _ => by simp⟩
      · exact h.fine a ha
  | none =>
    simp only
    have hemp : s.toReplay = [] := by
      rcases hl : s.toReplay with _ | ⟨a, t⟩
      · rfl
      · rw [hl] at hr
        have := List.getElem?_eq_none_iff.1 hr
        have h2 := Nat.mod_lt e.pick (show 0 < (a :: t).length by simp)
        omega
    have hw : Ring.waiting C.gameId s.acts = [] := by
      have := h.waiting; rw [hemp] at this; exact this.eq_nil
    unfold RM.newGame
    simp only
    rcases hg : C.getGame e.call s.comp with ⟨x | _ | j, c⟩
    · simp only
      refine ⟨⟨trivial, h.order⟩, Or.inl h.disk, ?_, Or.inl h.void, h.fine⟩
      intro k hk; obtain ⟨c, _, h2⟩ := h.max k hk; show starts s.acts ≤ k; omega
    · simp only
      refine ⟨⟨h.flight, h.nodup, h.playing, h.waiting, h.stop, h.counts, ⟨⟨hst, hw⟩, h.order⟩, h.void, h.disk, ?_, ?_⟩, Or.inr ⟨rfl, hw⟩⟩
      · intro k hk
        obtain ⟨c, h1, h2⟩ := hm k hk
        exact ⟨c, h1, show starts s.acts + c ≤ k by omega⟩
      · intro a ha
        rcases List.mem_cons.1 ha with rfl | ha
        · exact ⟨fun _ => by simp, fun _ => by simp⟩
        · exact h.fine a ha
    · simp only
      have hids : ∀ i, i ∈ s.inProgress.map C.gameId ↔ i ∈ (Ring.playing C.gameId s.acts).map C.gameId :=
        fun i => ((h.playing.map C.gameId).mem_iff).symm
      by_cases hin : C.gameId j ∈ s.inProgress.map C.gameId
      · rw [if_pos hin]
        refine ⟨⟨⟨hst, hw, (hids _).1 hin⟩, h.order⟩, Or.inl h.disk, ?_, Or.inl h.void, h.fine⟩
        intro k hk; obtain ⟨c, _, h2⟩ := h.max k hk; show starts s.acts ≤ k; omega
      · rw [if_neg hin]
        unfold RM.startJob
        simp only
        refine ⟨?_, ?_, ?_, h.waiting, h.stop, h.counts, ⟨⟨hst, hw, fun hc => hin ((hids _).2 hc)⟩, h.order⟩, h.void, h.disk, ?_, ?_⟩
        · rw [storeJob_fresh C hin]
          exact (h.flight.cons j).trans (List.perm_append_singleton j _).symm
        · show ((storeJob C s.inProgress j ++ s.toReplay).map C.gameId).Nodup
          have hn := h.nodup
          rw [storeJob_fresh C hin, hemp, List.append_nil]
          rw [hemp, List.append_nil] at hn
          rw [List.map_append, List.nodup_append]
          refine ⟨hn, by simp, ?_⟩
          intro a ha b hb
          rw [List.map_singleton, List.mem_singleton] at hb
          rintro rfl; exact hin (hb ▸ ha)
        · rw [storeJob_fresh C hin]
          exact (h.playing.cons j).trans (List.perm_append_singleton j _).symm
        · intro k hk
          obtain ⟨c, h1, h2⟩ := hm k hk
          exact ⟨c, h1, show starts s.acts + 1 + c ≤ k by omega⟩
        · intro a ha
          rcases List.mem_cons.1 ha with rfl | ha
          · exact ⟨fun _ => by simp, fun _ => by simp⟩
          · exact h.fine a ha

theorem RInv.halt {s : RM σ J X V E} {fl : List J} (h : RInv C v0 d0 mg s fl) (hns : s.stopping = false) : RInv C v0 d0 mg s.halt fl := by
  have hst : ¬ Stopped s.acts := by rw [← h.stop, hns]; simp
  refine ⟨h.flight, h.nodup, h.playing, h.waiting, ⟨fun _ => trivial, fun _ => rfl⟩, h.counts, ⟨hst, h.order⟩, h.void, h.disk, h.max, ?_⟩
  intro a ha
  rcases List.mem_cons.1 ha with rfl | ha
  · exact ⟨fun _ => by simp, fun _ => by simp⟩
  · exact h.fine a ha

theorem getJob1_cases {s : RM σ J X V E} {fl : List J} (h : RInv C v0 d0 mg s fl) (e : Env η) :
    GetCases C v0 d0 mg fl (s.getJob1 C e).1 (s.getJob1 C e).2 := by
  unfold RM.getJob1
  by_cases h1 : s.stopping = true
  · rw [if_pos h1]; exact ⟨h, Or.inl (h.stop.1 h1)⟩
  · rw [if_neg h1]
    have hns : s.stopping = false := by simpa using h1
    by_cases h2 : e.stop = true
    · rw [if_pos h2]; exact ⟨h.halt hns, Or.inl trivial⟩
    · rw [if_neg h2]
      cases hm : s.maxGames with
      | none =>
        simp only
        have := nextJob_cases h hns none (fun k hk => by
          obtain ⟨c, h3, _⟩ := h.max k hk
          rw [hm] at h3; cases h3) e
        rw [← hm] at this
        exact this
      | some k =>
        simp only
        by_cases hk : k = 0
        · rw [if_pos hk]; exact ⟨h.halt hns, Or.inl trivial⟩
        · rw [if_neg hk]
          refine nextJob_cases h hns _ (fun k' hk' => ?_) e
          obtain ⟨c, h3, h4⟩ := h.max k' hk'
          rw [hm] at h3
          have hc : k = (c : Int) := Option.some.inj h3
          refine ⟨c - 1, ?_, by omega⟩
          congr 1; omega

theorem AtEnd.comp {s : RM σ J X V E} (h : AtEnd C s) (c : σ) : AtEnd C { s with comp := c } := h

theorem getJob_cases {s : RM σ J X V E} {fl : List J} (h : RInv C v0 d0 mg s fl) (e : Env η) :
    GetCases C v0 d0 mg fl (RM.getJob C e s).1 (RM.getJob C e s).2 := by
  have h1 := getJob1_cases h e
  unfold RM.getJob
  rcases hg : s.getJob1 C e with ⟨x | _ | j, s1⟩ <;> rw [hg] at h1 <;> simp only
  · exact h1
  · rcases hd : s1.updateDisplay C e.display e.report with ⟨y | _, s2⟩
    · obtain ⟨c, x, rfl⟩ := updateDisplay_err hd
      exact h1.1.raised c x
    · obtain ⟨c, rfl⟩ := updateDisplay_ok hd
      exact ⟨h1.1.comp c, h1.2.comp c⟩
  · rcases hd : s1.updateDisplay C e.display e.report with ⟨y | _, s2⟩
    · obtain ⟨c, x, rfl⟩ := updateDisplay_err hd
      exact RInv.raised h1 c x
    · obtain ⟨c, rfl⟩ := updateDisplay_ok hd
      exact RInv.comp h1 c

/-- What processing a report can do. -/
def RepCases (C : Competition σ J X η V E) (v0 : Nat) (d0 : Option (Nat × V)) (mg : Option Int) (fl : List J) :
    Except (RExc E) Unit → RM σ J X V E → Prop
  | .error _, s => QInv C v0 d0 mg s
  | .ok _, s => RInv C v0 d0 mg s fl

theorem processResponse_cases {s : RM σ J X V E} {fl : List J} {j : J} (h : RInv C v0 d0 mg s (j :: fl)) (e : Env η) (x : X) :
    RepCases C v0 d0 mg fl (RM.processResponse C e j x s).1 (RM.processResponse C e j x s).2 := by
  have hn := h.nodup
  rw [List.map_append, List.nodup_append] at hn
  obtain ⟨n1, n2, n3⟩ := hn
  have hj : j ∈ s.inProgress := h.flight.mem_iff.1 (List.mem_cons_self ..)
  have hpp := pop_perm n1 hj
  unfold RM.processResponse
  rcases hr : C.processResult e.call j x s.comp with ⟨y | _, c⟩ <;> simp only
  · exact h.raised c y
  · rw [popJob_mem C n1 hj]
    simp only
    unfold RM.writeStatus
    by_cases hd : e.diskOk = true
    · rw [if_pos hd]
      refine ⟨?_, ?_, h.playing.filter _, h.waiting, h.stop, h.counts, ⟨h.playing.mem_iff.2 hj, h.order⟩, h.void, ?_, h.max, ?_⟩
      · exact (List.perm_cons j).1 (h.flight.trans hpp.symm)
      · refine ((List.filter_sublist (p := fun j' => decide (C.gameId j' ≠ C.gameId j))).append (List.Sublist.refl _) |>.map _).nodup h.nodup
      · show some (s.voidGameCount, C.save c) = some (v0 + voids s.acts, C.save c)
        rw [h.void]
      · intro a ha
        rcases List.mem_cons.1 ha with rfl | ha
        · exact ⟨fun _ => by simp, fun _ => by simp⟩
        · exact h.fine a ha
    · rw [if_neg hd]
      exact ⟨⟨h.playing.mem_iff.2 hj, h.order⟩, Or.inr h.disk, h.q.max, Or.inl h.void, h.fine⟩

theorem processError_cases {s : RM σ J X V E} {fl : List J} {j : J} (h : RInv C v0 d0 mg s (j :: fl)) (e : Env η) :
    RepCases C v0 d0 mg fl (RM.processError C e j s).1 (RM.processError C e j s).2 := by
  have hn := h.nodup
  rw [List.map_append, List.nodup_append] at hn
  obtain ⟨n1, n2, n3⟩ := hn
  have hj : j ∈ s.inProgress := h.flight.mem_iff.1 (List.mem_cons_self ..)
  have hpp := pop_perm n1 hj
  have hfresh : C.gameId j ∉ s.toReplay.map C.gameId := fun hc => n3 _ (List.mem_map_of_mem hj) _ hc rfl
  unfold RM.processError
  rcases hr : C.processError e.call j (errorCount s.errorCounts (C.gameId j)) s.comp with ⟨y | ⟨stop, retry⟩, c⟩ <;> simp only
  · exact ⟨⟨trivial, h.order⟩, Or.inl h.disk, h.q.max, Or.inr (by show s.voidGameCount + 1 = v0 + voids s.acts + 1; rw [h.void]), h.fine⟩
  · have key : ∀ (s' : RM σ J X V E), s'.comp = c → s'.disk = s.disk →
        s'.acts = .failed j (errorCount s.errorCounts (C.gameId j)) stop retry c :: s.acts → s'.voidGameCount = s.voidGameCount + 1 →
        s'.stopping = s.stopping → s'.maxGames = s.maxGames →
        s'.inProgress = s.inProgress.filter (fun j' => C.gameId j' ≠ C.gameId j) →
        s'.toReplay = (if retry && !stop then s.toReplay ++ [j] else s.toReplay) →
        (∀ i, errorCount s'.errorCounts i = if i = C.gameId j then (if retry && !stop then errorCount s.errorCounts (C.gameId j) + 1 else 0) else errorCount s.errorCounts i) →
        RepCases C v0 d0 mg fl (match s'.writeStatus C e with
          | (.error x, s') => ((.error x, s') : Except (RExc E) Unit × RM σ J X V E)
          | (.ok _, s') => (.ok (), if stop && !s'.stopping then { s' with stopping := true } else s')).1
          (match s'.writeStatus C e with
          | (.error x, s') => ((.error x, s') : Except (RExc E) Unit × RM σ J X V E)
          | (.ok _, s') => (.ok (), if stop && !s'.stopping then { s' with stopping := true } else s')).2 := by
      intro s' e1 e2 e3 e4 e5 e6 e7 e8 e9
      have hord : AllInOrder C.gameId s'.acts := by
        rw [e3]; exact ⟨⟨h.playing.mem_iff.2 hj, h.counts _⟩, h.order⟩
      have hfine : ∀ a ∈ s'.acts, (∀ e, a ≠ .raised e) ∧ ∀ j, a ≠ .clash j := by
        rw [e3]
        intro a ha
        rcases List.mem_cons.1 ha with rfl | ha
        · exact ⟨fun _ => by simp, fun _ => by simp⟩
        · exact h.fine a ha
      have hvoid : s'.voidGameCount = v0 + voids s'.acts := by
        rw [e4, e3, h.void]; rfl
      unfold RM.writeStatus
      by_cases hd : e.diskOk = true
      · rw [if_pos hd]
        simp only
        have main : ∀ b : Bool, (b = true ↔ Stopped s'.acts) →
            RInv C v0 d0 mg { s' with disk := some (s'.voidGameCount, C.save s'.comp), stopping := b } fl := by
          intro b hb
          refine ⟨?_, ?_, ?_, ?_, hb, ?_, hord, hvoid, ?_, ?_, hfine⟩
          · show fl.Perm s'.inProgress
            rw [e7]; exact (List.perm_cons j).1 (h.flight.trans hpp.symm)
          · show ((s'.inProgress ++ s'.toReplay).map C.gameId).Nodup
            rw [e7, e8]
            split
            · have hp : (s.inProgress.filter (fun j' => C.gameId j' ≠ C.gameId j) ++ (s.toReplay ++ [j])).Perm (s.inProgress ++ s.toReplay) := by
                rw [← List.append_assoc]
                refine (List.perm_append_singleton _ _).trans ?_
                rw [← List.cons_append]
                exact hpp.append_right _
              exact (hp.map _).nodup_iff.2 h.nodup
            · refine ((List.filter_sublist (p := fun j' => decide (C.gameId j' ≠ C.gameId j))).append (List.Sublist.refl _) |>.map _).nodup h.nodup
          · show (Ring.playing C.gameId s'.acts).Perm s'.inProgress
            rw [e3, e7]; exact h.playing.filter _
          · show (Ring.waiting C.gameId s'.acts).Perm s'.toReplay
            rw [e3, e8]
            cases stop <;> cases retry
            · exact h.waiting
            · exact (h.waiting.cons j).trans (List.perm_append_singleton _ _).symm
            · exact h.waiting
            · exact h.waiting
          · intro i
            show errorCount s'.errorCounts i = failures C.gameId i s'.acts
            rw [e9, e3]
            unfold failures
            by_cases hi : i = C.gameId j
            · rw [if_pos hi, if_pos hi.symm, hi, h.counts]
            · rw [if_neg hi, if_neg (Ne.symm hi), h.counts]
          · show some (s'.voidGameCount, C.save s'.comp) = statusFile C.save v0 d0 s'.acts
            rw [e1, e4, e3, h.void]; rfl
          · intro k hk
            show ∃ c : Nat, s'.maxGames = some (c : Int) ∧ starts s'.acts + c ≤ k
            rw [e6, e3]; exact h.max k hk
        have hstop : Stopped s'.acts ↔ (stop = true ∨ s.stopping = true) := by
          rw [e3, h.stop]; cases stop
          · exact ⟨Or.inr, fun h => h.resolve_left (by simp)⟩
          · exact ⟨fun _ => Or.inl rfl, fun _ => trivial⟩
        split
        · rename_i hb
          exact main true ⟨fun _ => hstop.2 (Or.inl (by simp only [Bool.and_eq_true] at hb; exact hb.1)), fun _ => rfl⟩
        · rename_i hb
          refine main s'.stopping ?_
          rw [e5, hstop]
          cases hs : stop
          · simp
          · rw [hs, e5] at hb
            cases ht : s.stopping
            · rw [ht] at hb; exact absurd rfl hb
            · simp
      · rw [if_neg hd]
        refine ⟨hord, Or.inr ?_, ?_, Or.inl hvoid, ?_⟩
        · rw [e2, e3]; exact h.disk
        · rw [e3]; exact h.q.max
        · rw [e3]; exact h.fine
    unfold RM.bookError
    simp only
    rw [popJob_mem C n1 hj]
    simp only
    by_cases hret : (retry && !stop) = true
    · rw [if_pos hret]
      refine key _ rfl rfl rfl rfl rfl rfl rfl ?_ ?_
      · rw [if_pos hret]; exact storeJob_fresh C hfresh
      · intro i; rw [if_pos hret]; exact errorCount_set ..
    · rw [if_neg hret]
      by_cases hp : errorCount s.errorCounts (C.gameId j) ≠ 0
      · rw [if_pos hp]
        refine key _ rfl rfl rfl rfl rfl rfl rfl ?_ ?_
        · rw [if_neg hret]
        · intro i; rw [if_neg hret]; exact errorCount_filter ..
      · rw [if_neg hp]
        refine key _ rfl rfl rfl rfl rfl rfl rfl ?_ ?_
        · rw [if_neg hret]
        · intro i; rw [if_neg hret]
          show errorCount s.errorCounts i = _
          split
          · rename_i hi; rw [hi]; simpa using hp
          · rfl

theorem keeps (C : Competition σ J X η V E) (v0 : Nat) (d0 : Option (Nat × V)) (mg : Option Int) :
    Keeps (source C) (RInv C v0 d0 mg) (QInv C v0 d0 mg) (AtEnd C) where
  perm h hp := ⟨hp.symm.trans h.flight, h.nodup, h.playing, h.waiting, h.stop, h.counts, h.order, h.void, h.disk, h.max, h.fine⟩
  none {e s s' fl} h hg := by
    have := getJob_cases h e
    change RM.getJob C e s = _ at hg
    rw [hg] at this; exact this.1
  some {e s s' fl j} h hg := by
    have := getJob_cases h e
    change RM.getJob C e s = _ at hg
    rw [hg] at this; exact this
  response {e s s' fl j x u} h hg := by
    have := processResponse_cases h e x
    change RM.processResponse C e j x s = _ at hg
    rw [hg] at this; exact this
  error {e s s' fl j u} h hg := by
    have := processError_cases h e
    change RM.processError C e j s = _ at hg
    rw [hg] at this; exact this
  always h := h.q
  getErr {e s s' fl x} h hg := by
    have := getJob_cases h e
    change RM.getJob C e s = _ at hg
    rw [hg] at this; exact this
  respErr {e s s' fl j x y} h hg := by
    have := processResponse_cases h e x
    change RM.processResponse C e j x s = _ at hg
    rw [hg] at this; exact this
  errErr {e s s' fl j y} h hg := by
    have := processError_cases h e
    change RM.processError C e j s = _ at hg
    rw [hg] at this; exact this
  atEnd {e s s' fl} h hg := by
    have := getJob_cases h e
    change RM.getJob C e s = _ at hg
    rw [hg] at this; exact this.2

end Gomill.Ring
