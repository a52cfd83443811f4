import Verif.Lemmas.RingmasterEnd
/-
What the ringmaster does about failed games.
-/
namespace Gomill.Jobs
variable {σ J X ε E : Type}

/-- As `Preserves`, for properties which mention the record of calls. -/
structure PreservesLog (S : Source σ J X ε E) (P : σ → List J → List (Call J X) → Prop) : Prop where
  perm : ∀ {s fl fl' l}, P s fl l → fl.Perm fl' → P s fl' l
  ran : ∀ {s fl l j x}, P s fl l → P s fl (.ran j x :: l)
  none : ∀ {e s s' fl l}, P s fl l → S.getJob e s = (.ok none, s') → P s' fl (.nothing :: l)
  some : ∀ {e s s' fl j l}, P s fl l → S.getJob e s = (.ok (some j), s') → P s' (j :: fl) (.got j :: l)
  response : ∀ {e s s' fl j x u l}, P s (j :: fl) l → S.processResponse e j x s = (.ok u, s') → P s' fl (.response j x :: l)
  error : ∀ {e s s' fl j u l}, P s (j :: fl) l → S.processError e j s = (.ok u, s') → P s' fl (.error j :: l)

theorem preservedLog_step {S : Source σ J X ε E} {P : σ → List J → List (Call J X) → Prop} (hP : PreservesLog S P) {m : Mp σ J X E}
    (s : Step X ε) (h : m.phase.fine → P m.src m.inFlight m.log) :
    (m.step S s).phase.fine → P (m.step S s).src (m.step S s).inFlight (m.step S s).log := by
  cases s with
  | take k =>
    intro hf
    show P (m.take k).src (m.take k).inFlight (m.take k).log
    have hl : (m.take k).log = m.log := by unfold Mp.take; split <;> rfl
    have := take_src m k
    rw [this.1, hl]
    exact hP.perm (h (this.2 ▸ hf)) (take_inFlight m k).symm
  | finishJob k x =>
    intro hf
    show P (m.finishJob k x).src (m.finishJob k x).inFlight (m.finishJob k x).log
    have := finishJob_src m k x
    have hperm := finishJob_inFlight m k x
    rw [this.1]
    refine hP.perm ?_ hperm.symm
    have h0 := h (this.2 ▸ hf)
    unfold Mp.finishJob
    split
    · exact hP.ran h0
    · exact h0
  | mgr e =>
    show (m.mgr S e).phase.fine → P (m.mgr S e).src (m.mgr S e).inFlight (m.mgr S e).log
    unfold Mp.mgr
    cases hph : m.phase with
    | looping =>
      have h0 := h (by rw [hph]; trivial)
      simp only
      have hag : ∀ m1 : Mp σ J X E, m1.afterGet.log = m1.log := by
        intro m1; unfold Mp.afterGet; split <;> rfl
      intro hf
      unfold Mp.topOfLoop at hf ⊢
      split at hf
      · rename_i hlt
        rw [if_pos hlt]
        rcases hg : S.getJob e m.src with ⟨x | _ | j, s⟩
        · rw [hg] at hf; exact absurd hf (by simp [Mp.beginFinish, Phase.fine])
        · simp only
          obtain ⟨h1, h2⟩ := afterGet_inFlight { m with src := s, log := .nothing :: m.log }
          rw [h1, h2, hag]
          exact hP.none h0 hg
        · refine hP.perm (hP.some h0 hg) ?_
          show (j :: m.inFlight).Perm ((m.jobQ ++ [some j]).filterMap id ++ m.running ++ m.respQ.map Prod.fst)
          unfold Mp.inFlight Mp.queued
          simp only [List.filterMap_append, List.filterMap_cons, List.filterMap_nil, id, List.append_assoc,
            List.singleton_append]
          exact List.perm_middle.symm
      · rename_i hlt
        rw [if_neg hlt]
        obtain ⟨h1, h2⟩ := afterGet_inFlight m
        rw [h1, h2, hag]; exact h0
    | waiting =>
      have h0 := h (by rw [hph]; trivial)
      simp only
      unfold Mp.takeResponse
      have key : ∀ (j : J) (x : Option X) (rest : List (J × Option X)) (c : Call J X) (r : Except E Unit × σ),
          m.respQ = (j, x) :: rest → (∀ fl u, P m.src (j :: fl) m.log → r.1 = .ok u → P r.2 fl (c :: m.log)) →
          (Mp.endOfLoop { m with respQ := rest, src := r.2, log := c :: m.log } r.1).phase.fine →
          P (Mp.endOfLoop { m with respQ := rest, src := r.2, log := c :: m.log } r.1).src
            (Mp.endOfLoop { m with respQ := rest, src := r.2, log := c :: m.log } r.1).inFlight
            (Mp.endOfLoop { m with respQ := rest, src := r.2, log := c :: m.log } r.1).log := by
        intro j x rest c r hq hstep
        obtain ⟨r1, r2⟩ := r
        cases r1 with
        | error x' => intro hf; exact absurd hf (by simp [Mp.endOfLoop, Mp.beginFinish, Phase.fine])
        | ok u =>
          intro _
          refine hstep _ u ?_ rfl
          refine hP.perm h0 ?_
          show m.inFlight.Perm (j :: (m.queued ++ m.running ++ rest.map Prod.fst))
          unfold Mp.inFlight
          rw [hq]
          exact List.perm_middle
      rcases hq : m.respQ with _ | ⟨⟨j, _ | x⟩, rest⟩
      · intro _; exact h0
      · refine key j none rest _ (S.processError e j m.src) hq ?_
        intro fl u hp hok
        exact hP.error hp (e := e) (u := u) (Prod.ext hok rfl)
      · refine key j (some x) rest _ (S.processResponse e j x m.src) hq ?_
        intro fl u hp hok
        exact hP.response hp (e := e) (x := x) (u := u) (Prod.ext hok rfl)
    | finishing exc =>
      simp only
      split
      · intro hf
        exact h (by rw [hph]; exact hf)
      · exact h
    | returned exc => exact h

theorem preservedLog_run {S : Source σ J X ε E} {P : σ → List J → List (Call J X) → Prop} (hP : PreservesLog S P) (l : List (Step X ε)) :
    ∀ {m : Mp σ J X E}, (m.phase.fine → P m.src m.inFlight m.log) →
      (m.run S l).phase.fine → P (m.run S l).src (m.run S l).inFlight (m.run S l).log := by
  induction l with
  | nil => intro m h; exact h
  | cons s l ih => intro m h; exact ih (preservedLog_step hP s h)

end Gomill.Jobs

namespace Gomill.Tourn
open Py Sched SchedSpec Jobs

/-- The state agrees with the record. -/
structure Told (P : Params) (s : RM) (fl : List Job) (l : List (Call Job Outcome)) : Prop where
  rinv : RInv P s fl
  nodup : s.t.probationary.Nodup
  trust : ∀ m, (m ∈ s.t.working ∧ m ∉ s.t.probationary) ↔ lastSucceeded m l = true
  replay : s.stopping = false → ∀ j, madeGood j l = false → j ∈ fl ∨ j ∈ s.toReplay

theorem getJob_replay {P : Params} {s s' : RM} {fl : List Job} {e : Env} {r : Option Job} (h : RInv P s fl) (hg : RM.getJob e s = (.ok r, s')) :
    s'.t.working = s.t.working ∧ s'.t.probationary = s.t.probationary ∧ (s'.stopping = false → s.stopping = false) ∧
    (r = none → s'.stopping = false → s'.toReplay = s.toReplay) ∧ ∀ j, r = some j → s'.stopping = false →
      ∀ j' ∈ s.toReplay, j' = j ∨ j' ∈ s'.toReplay := by
  have hgg : ∀ (t : State), t.getGame.2.working = t.working ∧ t.getGame.2.probationary = t.probationary := by
    intro t
    unfold State.getGame
    split
    · exact ⟨rfl, rfl⟩
    · split <;> exact ⟨rfl, rfl⟩
  have hnext : ∀ (s : RM) (x : Except RExc (Option Job)) (s1 : RM), RInv P s fl → s.nextJob e = (x, s1) →
      s1.t.working = s.t.working ∧ s1.t.probationary = s.t.probationary ∧ s1.stopping = s.stopping ∧
      (x = .ok none → s1.toReplay = s.toReplay) ∧ ∀ j, x = .ok (some j) → ∀ j' ∈ s.toReplay, j' = j ∨ j' ∈ s1.toReplay := by
    intro s x s1 h hn
    unfold RM.nextJob at hn
    split at hn
    · rename_i j hj
      have hm : j ∈ s.toReplay := List.mem_of_getElem? hj
      simp only [RM.startJob, Prod.mk.injEq] at hn
      obtain ⟨rfl, rfl⟩ := hn
      refine ⟨rfl, rfl, rfl, fun hc => by simp at hc, ?_⟩
      intro j1 hj1 j' hj'
      simp only [Except.ok.injEq, Option.some.injEq] at hj1
      subst hj1
      by_cases he : j' = j
      · exact Or.inl he
      · right
        rw [List.mem_filter]
        refine ⟨hj', ?_⟩
        have ha : Apart s.toReplay := h.core.apart.sublist (List.sublist_append_right _ _)
        simp only [ne_eq, decide_not, Bool.not_eq_true', decide_eq_false_iff_not]
        exact fun hc => he (ha.eq hj' hm hc)
    · unfold RM.newGame at hn
      obtain ⟨w1, w2⟩ := hgg s.t
      rcases hgame : s.t.getGame with ⟨y | _ | j, t⟩
      · rw [hgame] at hn w1 w2
        simp only [Prod.mk.injEq] at hn
        obtain ⟨rfl, rfl⟩ := hn
        exact ⟨w1, w2, rfl, fun _ => rfl, fun j hj => by simp at hj⟩
      · rw [hgame] at hn w1 w2
        simp only [Prod.mk.injEq] at hn
        obtain ⟨rfl, rfl⟩ := hn
        exact ⟨w1, w2, rfl, fun _ => rfl, fun j hj => by simp at hj⟩
      · rw [hgame] at hn w1 w2
        simp only at hn
        split at hn
        · simp only [Prod.mk.injEq] at hn
          obtain ⟨rfl, rfl⟩ := hn
          exact ⟨w1, w2, rfl, fun _ => rfl, fun j hj => by simp at hj⟩
        · simp only [RM.startJob, Prod.mk.injEq] at hn
          obtain ⟨rfl, rfl⟩ := hn
          exact ⟨w1, w2, rfl, fun _ => rfl, fun j hj j' hj' => Or.inr hj'⟩
  unfold RM.getJob at hg
  rcases h1 : s.getJob1 e with ⟨x | r1, s1⟩
  · rw [h1] at hg; simp at hg
  · rw [h1] at hg
    simp only [Prod.mk.injEq, Except.ok.injEq] at hg
    obtain ⟨rfl, rfl⟩ := hg
    have hu : (s1.updateDisplay e).t.working = s1.t.working ∧ (s1.updateDisplay e).t.probationary = s1.t.probationary ∧
        (s1.updateDisplay e).stopping = s1.stopping ∧ (s1.updateDisplay e).toReplay = s1.toReplay := by
      unfold RM.updateDisplay
      split <;> exact ⟨rfl, rfl, rfl, rfl⟩
    rw [hu.1, hu.2.1, hu.2.2.1, hu.2.2.2]
    unfold RM.getJob1 at h1
    split at h1
    · simp only [Prod.mk.injEq, Except.ok.injEq] at h1
      obtain ⟨rfl, rfl⟩ := h1
      exact ⟨rfl, rfl, id, fun _ _ => rfl, fun j hj => by simp at hj⟩
    · rename_i hs
      split at h1
      · simp only [Prod.mk.injEq, Except.ok.injEq] at h1
        obtain ⟨rfl, rfl⟩ := h1
        exact ⟨rfl, rfl, fun hc => by simp at hc, fun _ hc => by simp at hc, fun j hj => by simp at hj⟩
      · split at h1
        · obtain ⟨a1, a2, a3, a4, a5⟩ := hnext s _ s1 h h1
          exact ⟨a1, a2, fun _ => by simpa using hs, fun hr _ => a4 (by rw [hr]), fun j hj _ => a5 j (by rw [hj])⟩
        · split at h1
          · simp only [Prod.mk.injEq, Except.ok.injEq] at h1
            obtain ⟨rfl, rfl⟩ := h1
            exact ⟨rfl, rfl, fun hc => by simp at hc, fun _ hc => by simp at hc, fun j hj => by simp at hj⟩
          · rename_i k _ _
            obtain ⟨a1, a2, a3, a4, a5⟩ := hnext { s with maxGames := some (k - 1) } _ s1
              ⟨h.core, h.disk, h.diskOk, h.flight⟩ h1
            exact ⟨a1, a2, fun _ => by simpa using hs, fun hr _ => a4 (by rw [hr]), fun j hj _ => a5 j (by rw [hj])⟩

theorem mem_setDiscard' {α : Type} [DecidableEq α] {l : List α} (hn : l.Nodup) {a b : α} : a ∈ setDiscard l b ↔ a ≠ b ∧ a ∈ l := by
  unfold setDiscard; exact hn.mem_erase_iff

theorem nodup_setDiscard' {α : Type} [DecidableEq α] {l : List α} (hn : l.Nodup) {b : α} : (setDiscard l b).Nodup := by
  unfold setDiscard; exact hn.erase b

theorem processResponse_told {s s' : RM} {e : Env} {j : Job} {x : Outcome} {u : Unit} (h : RM.processResponse e j x s = (.ok u, s')) :
    s'.t.working = setAdd s.t.working j.matchupId ∧ s'.t.probationary = setDiscard s.t.probationary j.matchupId ∧
    s'.stopping = s.stopping ∧ s'.toReplay = s.toReplay := by
  unfold RM.processResponse State.processGameResult at h
  simp only at h
  cases hf : s.t.scheduler.fix j.matchupId j.number with
  | error x => rw [hf] at h; simp at h
  | ok g =>
    rw [hf] at h
    simp only at h
    split at h
    · simp at h
    · unfold RM.writeStatus at h
      split at h
      · simp only [Prod.mk.injEq] at h
        obtain ⟨_, rfl⟩ := h
        exact ⟨rfl, rfl, rfl, rfl⟩
      · simp at h

/-- process_error_response(): when the game is replayed, and when the competition is stopped. -/
theorem processError_told {s s' : RM} {e : Env} {j : Job} {u : Unit} (h : RM.processError e j s = (.ok u, s')) :
    s'.t.working = s.t.working ∧
    if j.matchupId ∈ s.t.working ∧ j.matchupId ∉ s.t.probationary then
      s'.t.probationary = setAdd s.t.probationary j.matchupId ∧ s'.stopping = s.stopping ∧ s'.toReplay = storeJob s.toReplay j
    else s'.t.probationary = s.t.probationary ∧ s'.stopping = true ∧ s'.toReplay = s.toReplay := by
  by_cases hc : j.matchupId ∈ s.t.working ∧ j.matchupId ∉ s.t.probationary
  · rw [if_pos hc]
    have hpe : s.t.processGameError j = ((false, true), { s.t with probationary := setAdd s.t.probationary j.matchupId }) := by
      unfold State.processGameError
      rw [if_neg (by rw [not_or, not_not]; exact hc)]
    unfold RM.processError at h
    rw [hpe] at h
    simp only [Bool.not_false, Bool.and_true, Bool.false_and] at h
    unfold RM.bookError at h
    split at h
    · simp at h
    · rename_i s1 hb
      split at hb
      · simp at hb
      · simp only [if_true, Except.ok.injEq] at hb
        subst hb
        unfold RM.writeStatus at h
        by_cases hd : e.diskOk = true
        · simp only [hd, if_true, Prod.mk.injEq] at h
          obtain ⟨_, rfl⟩ := h
          exact ⟨rfl, rfl, rfl, rfl⟩
        · simp [hd] at h
  · rw [if_neg hc]
    have hpe : s.t.processGameError j = ((true, false), s.t) := by
      unfold State.processGameError
      rw [if_pos]
      by_cases h1 : j.matchupId ∈ s.t.working
      · right
        by_contra h2
        exact hc ⟨h1, h2⟩
      · exact Or.inl h1
    unfold RM.processError at h
    rw [hpe] at h
    simp only [Bool.not_true, Bool.and_false, Bool.true_and] at h
    unfold RM.bookError at h
    split at h
    · simp at h
    · rename_i s1 hb
      split at hb
      · simp at hb
      · simp only [Bool.false_eq_true, if_false, Except.ok.injEq] at hb
        subst hb
        unfold RM.writeStatus at h
        by_cases hd : e.diskOk = true
        · simp only [hd, if_true, Prod.mk.injEq] at h
          obtain ⟨_, rfl⟩ := h
          cases hs : s.stopping with
          | true => simp [hs]
          | false => simp [hs]
        · simp [hd] at h

theorem told_preserves (P : Params) : PreservesLog source (Told P) where
  perm := fun h hp => ⟨(preserves P).perm h.rinv hp, h.nodup, h.trust, fun hs j hj => (h.replay hs j hj).imp_left hp.mem_iff.1⟩
  ran := fun h => ⟨h.rinv, h.nodup, h.trust, h.replay⟩
  none := by
    intro e s s' fl l h hg
    obtain ⟨a1, a2, a3, a4, _⟩ := getJob_replay h.rinv hg
    refine ⟨(preserves P).none h.rinv hg, a2 ▸ h.nodup, fun m => ?_, fun hs j hj => ?_⟩
    · rw [a1, a2]; exact h.trust m
    · rw [a4 rfl hs]; exact h.replay (a3 hs) j hj
  some := by
    intro e s s' fl j l h hg
    obtain ⟨a1, a2, a3, _, a5⟩ := getJob_replay h.rinv hg
    refine ⟨(preserves P).some h.rinv hg, a2 ▸ h.nodup, fun m => ?_, fun hs j' hj => ?_⟩
    · rw [a1, a2]; exact h.trust m
    · rcases h.replay (a3 hs) j' hj with h1 | h1
      · exact Or.inl (by simp [h1])
      · rcases a5 j rfl hs j' h1 with h2 | h2
        · exact Or.inl (by simp [h2])
        · exact Or.inr h2
  response := by
    intro e s s' fl j x u l h hg
    obtain ⟨a1, a2, a3, a4⟩ := processResponse_told hg
    refine ⟨(preserves P).response h.rinv hg, a2 ▸ nodup_setDiscard' h.nodup, fun m => ?_, fun hs j' hj => ?_⟩
    · rw [a1, a2, mem_setAdd, mem_setDiscard' h.nodup]
      simp only [lastSucceeded]
      by_cases hm : j.matchupId = m
      · simp [hm]
      · have hm' : m ≠ j.matchupId := fun hc => hm hc.symm
        rw [if_neg hm, ← h.trust m]
        simp [hm']
    · simp only [madeGood] at hj
      by_cases he : j = j'
      · simp [he] at hj
      · rw [if_neg he] at hj
        rw [a4]
        rcases h.replay (a3 ▸ hs) j' hj with h1 | h1
        · rcases List.mem_cons.1 h1 with h2 | h2
          · exact absurd h2.symm he
          · exact Or.inl h2
        · exact Or.inr h1
  error := by
    intro e s s' fl j u l h hg
    obtain ⟨a1, a2⟩ := processError_told hg
    have hr := (preserves P).error h.rinv hg
    by_cases hc : j.matchupId ∈ s.t.working ∧ j.matchupId ∉ s.t.probationary
    · rw [if_pos hc] at a2
      obtain ⟨b1, b2, b3⟩ := a2
      refine ⟨hr, b1 ▸ ?_, fun m => ?_, fun hs j' hj => ?_⟩
      · unfold setAdd; split
        · exact h.nodup
        · exact List.nodup_cons.2 ⟨hc.2, h.nodup⟩
      · rw [a1, b1, mem_setAdd]
        simp only [lastSucceeded]
        by_cases hm : j.matchupId = m
        · simp [hm]
        · have hm' : m ≠ j.matchupId := fun hc => hm hc.symm
          rw [if_neg hm, ← h.trust m]
          simp [hm']
      · rw [b3]
        unfold storeJob
        simp only [madeGood] at hj
        by_cases he : j = j'
        · right; simp [he]
        · rw [if_neg he] at hj
          rcases h.replay (b2 ▸ hs) j' hj with h1 | h1
          · rcases List.mem_cons.1 h1 with h2 | h2
            · exact absurd h2.symm he
            · exact Or.inl h2
          · right
            rw [List.mem_append, List.mem_filter]
            left
            refine ⟨h1, ?_⟩
            have hap := h.rinv.core.apart
            have hjm : j ∈ s.inProgress ++ s.toReplay :=
              List.mem_append_left _ (h.rinv.flight.mem_iff.1 (by simp))
            simp only [ne_eq, decide_not, Bool.not_eq_true', decide_eq_false_iff_not]
            exact fun hc => he (hap.eq (List.mem_append_right _ h1) hjm hc).symm
    · rw [if_neg hc] at a2
      obtain ⟨b1, b2, b3⟩ := a2
      refine ⟨hr, b1 ▸ h.nodup, fun m => ?_, fun hs => by rw [b2] at hs; simp at hs⟩
      rw [a1, b1]
      simp only [lastSucceeded]
      by_cases hm : j.matchupId = m
      · subst hm
        simp only [if_true]
        constructor
        · intro h'; exact absurd h' hc
        · intro h'; simp at h'
      · rw [if_neg hm]; exact h.trust m

end Gomill.Tourn
