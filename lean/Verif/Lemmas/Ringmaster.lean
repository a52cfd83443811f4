import Verif.Lemmas.Tournament
import Verif.Lemmas.Jobs
/-
Invariants of a running ringmaster and of its status file.
-/
namespace Gomill.Tourn
open Py Sched SchedSpec Jobs

structure RInv (P : Params) (s : RM) (fl : List Job) : Prop where
  core : Core P s.t (s.inProgress ++ s.toReplay) s.stopping
  disk : ∀ m, savedIn s.disk m = s.t.results.get m
  diskOk : DiskOk P s.disk
  flight : fl.Perm s.inProgress

theorem diskOk_save {P : Params} {t : State} {js : List Job} {b : Bool} (h : Core P t js b) (v : Nat) :
    DiskOk P (some (v, t.save)) ∧ ∀ m, savedIn (some (v, t.save)) m = t.results.get m := by
  obtain ⟨l, hl⟩ := h.tinv
  have hs := loadResults_save hl.pickle
  refine ⟨?_, fun m => by show t.save.loadResults.get m = _; rw [hs]⟩
  intro v' s' he
  simp only [Option.some.injEq, Prod.mk.injEq] at he
  obtain ⟨_, rfl⟩ := he
  rw [hs]
  refine ⟨⟨l, hl⟩, ?_⟩
  intro c hc
  have := h.fits.comp c hc
  exact ⟨by show t.comp.competitors = _; rw [this], h.keys c hc, by rw [← this]; exact h.between⟩

/-- Jobs which are told apart by their game ids. -/
structure Apart (l : List Job) : Prop where
  nodup : (l.map Job.key).Nodup
  ids : ∀ a ∈ l, GameIdOf a.matchupId a.number a.gameId

theorem Core.apart {P : Params} {t : State} {js : List Job} {b : Bool} (h : Core P t js b) : Apart js :=
  ⟨h.nodup, fun j hj => by obtain ⟨⟨mu, _, h1⟩, _⟩ := h.jobs j hj; exact job_gameId h1⟩

theorem Apart.sublist {l l' : List Job} (h : Apart l') (hs : l.Sublist l') : Apart l :=
  ⟨(hs.map _).nodup h.nodup, fun a ha => h.ids a (hs.subset ha)⟩

theorem Apart.perm {l l' : List Job} (h : Apart l) (hs : l.Perm l') : Apart l' :=
  ⟨((hs.map _).nodup_iff).1 h.nodup, fun a ha => h.ids a (hs.mem_iff.2 ha)⟩

theorem Apart.eq {l : List Job} (h : Apart l) {a b : Job} (ha : a ∈ l) (hb : b ∈ l) (he : a.gameId = b.gameId) : a = b := by
  have hk := key_of_gameId (h.ids a ha) (h.ids b hb) he
  exact List.inj_on_of_nodup_map h.nodup ha hb hk

theorem Apart.filter {l : List Job} (h : Apart l) {j : Job} (hj : j ∈ l) :
    l.Perm (j :: l.filter (fun j' => j'.gameId ≠ j.gameId)) := by
  have hn : l.Nodup := List.Nodup.of_map _ h.nodup
  have he : l.filter (fun j' => j'.gameId ≠ j.gameId) = l.erase j := by
    rw [hn.erase_eq_filter]
    apply List.filter_congr
    intro x hx
    by_cases hxj : x = j
    · subst hxj; simp
    · have : x.gameId ≠ j.gameId := fun hc => hxj (h.eq hx hj hc)
      simp [this, hxj]
  rw [he]
  exact List.perm_cons_erase hj

theorem Apart.filter_cons {l l' : List Job} {j : Job} (h : Apart l) (hp : l.Perm (j :: l')) :
    (l.filter (fun j' => j'.gameId ≠ j.gameId)).Perm l' :=
  ((h.filter (hp.mem_iff.2 (by simp))).symm.trans hp).cons_inv

theorem Apart.fresh {l : List Job} {j : Job} (h : Apart (j :: l)) : ∀ x ∈ l, x.gameId ≠ j.gameId := by
  intro x hx hc
  have hn : (j :: l).Nodup := List.Nodup.of_map _ h.nodup
  have := h.eq (a := x) (b := j) (by simp [hx]) (by simp) hc
  subst this
  exact (List.nodup_cons.1 hn).1 hx

theorem Apart.store {l : List Job} {j : Job} (h : Apart (j :: l)) : storeJob l j = l ++ [j] := by
  unfold storeJob
  congr 1
  rw [List.filter_eq_self]
  intro x hx
  simp [h.fresh x hx]

theorem Apart.del {l : List Job} (h : Apart l) {j : Job} (hj : j ∈ l) :
    delJob l j.gameId = .ok (l.filter (fun j' => j'.gameId ≠ j.gameId)) := by
  unfold delJob
  rw [if_pos (List.mem_map_of_mem (f := Job.gameId) hj)]

theorem RInv.updateDisplay {P : Params} {s : RM} {fl : List Job} (h : RInv P s fl) (e : Env) : RInv P (s.updateDisplay e) fl := by
  unfold RM.updateDisplay
  split
  · obtain ⟨h1, h2⟩ := h.core.touchAll
    exact ⟨h1, fun m => (h.disk m).trans (h2 m).symm, h.diskOk, h.flight⟩
  · exact h

/-- What the ringmaster holds when about to start job `j`. -/
structure Pre (P : Params) (s : RM) (fl : List Job) (j : Job) : Prop where
  core : Core P s.t (j :: (s.inProgress ++ s.toReplay)) s.stopping
  disk : ∀ m, savedIn s.disk m = s.t.results.get m
  diskOk : DiskOk P s.disk
  flight : fl.Perm s.inProgress

theorem Pre.startJob {P : Params} {s : RM} {fl : List Job} {j : Job} (h : Pre P s fl j) :
    (s.startJob j).1 = .ok (some j) ∧ RInv P (s.startJob j).2 (j :: fl) ∧ (s.startJob j).2.disk = s.disk := by
  refine ⟨rfl, ?_, rfl⟩
  have ha : Apart (j :: s.inProgress) := by
    refine h.core.apart.sublist ?_
    exact List.Sublist.cons_cons _ (List.sublist_append_left _ _)
  have hs := ha.store
  unfold RM.startJob
  refine ⟨?_, h.disk, h.diskOk, ?_⟩
  · show Core P s.t (storeJob s.inProgress j ++ s.toReplay) s.stopping
    rw [hs]
    refine h.core.perm ?_
    rw [List.append_assoc]
    exact List.perm_middle.symm
  · show (j :: fl).Perm (storeJob s.inProgress j)
    rw [hs]
    exact (h.flight.cons j).trans (List.perm_append_singleton _ _).symm

/-- The state in which get_job() will say that there's nothing left to do. -/
def Quiet (s : RM) : Prop := s.stopping = false → s.toReplay = [] ∧ ∀ e ∈ s.t.scheduler, e.available = false

/-- The result of asking for a job. -/
def Asked (P : Params) (s : RM) (fl : List Job) (r : Except RExc (Option Job) × RM) : Prop :=
  r.2.disk = s.disk ∧
  ((∃ j, r.1 = .ok (some j) ∧ RInv P r.2 (j :: fl)) ∨ (r.1 = .ok none ∧ RInv P r.2 fl ∧ Quiet r.2))

theorem RInv.newGame {P : Params} {s : RM} {fl : List Job} (h : RInv P s fl) (hr : s.toReplay = []) : Asked P s fl s.newGame := by
  unfold RM.newGame
  rcases h.core.getGame with ⟨j, h1, h2, h3⟩ | ⟨h1, h2⟩
  · obtain ⟨r, t, ht⟩ : ∃ r t, s.t.getGame = (r, t) := ⟨_, _, rfl⟩
    rw [ht] at h1 h2 h3 ⊢
    simp only at h1 h2 h3
    subst h1
    simp only
    have hpre : Pre P { s with t := t } fl j := ⟨h2, fun m => by rw [h3]; exact h.disk m, h.diskOk, h.flight⟩
    have hfresh : j.gameId ∉ s.inProgress.map Job.gameId := by
      rw [List.mem_map]
      rintro ⟨x, hx, he⟩
      exact h2.apart.fresh x (List.mem_append_left _ hx) he
    rw [if_neg hfresh]
    obtain ⟨g1, g2, g3⟩ := hpre.startJob
    exact ⟨g3, Or.inl ⟨j, g1, g2⟩⟩
  · rw [h1]
    simp only
    refine ⟨rfl, Or.inr ⟨rfl, ⟨h.core, h.disk, h.diskOk, h.flight⟩, fun _ => ⟨hr, h2⟩⟩⟩

theorem RInv.nextJob {P : Params} {s : RM} {fl : List Job} (h : RInv P s fl) (e : Env) : Asked P s fl (s.nextJob e) := by
  unfold RM.nextJob
  cases hp : s.toReplay[e.pick % s.toReplay.length]? with
  | none =>
    simp only
    refine h.newGame ?_
    cases hl : s.toReplay with
    | nil => rfl
    | cons a l =>
      rw [hl] at hp
      rw [List.getElem?_eq_none_iff] at hp
      have : e.pick % (a :: l).length < (a :: l).length := Nat.mod_lt _ (by simp)
      omega
  | some j =>
    simp only
    have hj : j ∈ s.toReplay := List.mem_of_getElem? hp
    have ha : Apart s.toReplay := h.core.apart.sublist (List.sublist_append_right _ _)
    have hpre : Pre P { s with toReplay := s.toReplay.filter (fun j' => j'.gameId ≠ j.gameId) } fl j := by
      refine ⟨h.core.perm ?_, h.disk, h.diskOk, h.flight⟩
      exact ((ha.filter hj).append_left s.inProgress).trans List.perm_middle
    obtain ⟨g1, g2, g3⟩ := hpre.startJob
    exact ⟨g3, Or.inl ⟨j, g1, g2⟩⟩

theorem RInv.stop {P : Params} {s : RM} {fl : List Job} (h : RInv P s fl) : RInv P { s with stopping := true } fl :=
  ⟨h.core.stopped, h.disk, h.diskOk, h.flight⟩

theorem RInv.getJob1 {P : Params} {s : RM} {fl : List Job} (h : RInv P s fl) (e : Env) : Asked P s fl (s.getJob1 e) := by
  unfold RM.getJob1
  split
  · rename_i hs
    exact ⟨rfl, Or.inr ⟨rfl, h, fun hc => absurd hc (by simp [hs])⟩⟩
  · split
    · exact ⟨rfl, Or.inr ⟨rfl, h.stop, fun hc => absurd hc (by simp)⟩⟩
    · split
      · exact h.nextJob e
      · split
        · exact ⟨rfl, Or.inr ⟨rfl, h.stop, fun hc => absurd hc (by simp)⟩⟩
        · rename_i k _ _
          exact RInv.nextJob (s := { s with maxGames := some (k - 1) }) ⟨h.core, h.disk, h.diskOk, h.flight⟩ e

theorem updateDisplay_facts (s : RM) (e : Env) : (s.updateDisplay e).disk = s.disk ∧ (Quiet s → Quiet (s.updateDisplay e)) := by
  unfold RM.updateDisplay
  split
  · exact ⟨rfl, id⟩
  · exact ⟨rfl, id⟩

theorem RInv.getJob {P : Params} {s : RM} {fl : List Job} (h : RInv P s fl) (e : Env) : Asked P s fl (RM.getJob e s) := by
  obtain ⟨h1, h2⟩ := h.getJob1 e
  unfold RM.getJob
  rcases hg : s.getJob1 e with ⟨x | r, s'⟩
  · rw [hg] at h2
    rcases h2 with ⟨j, h2, _⟩ | ⟨h2, _⟩ <;> exact absurd h2 (by simp)
  · rw [hg] at h1 h2
    simp only at h1 h2 ⊢
    obtain ⟨d1, d2⟩ := updateDisplay_facts s' e
    refine ⟨d1.trans h1, ?_⟩
    rcases h2 with ⟨j, h2, h3⟩ | ⟨h2, h3, h4⟩
    · exact Or.inl ⟨j, h2, h3.updateDisplay e⟩
    · exact Or.inr ⟨h2, h3.updateDisplay e, d2 h4⟩

/-! ### Responses -/

theorem suits_result (j : Job) (x : Outcome) : Suits j (j.result x) := by
  refine ⟨rfl, ?_, ?_⟩
  · unfold Job.result GameResult.setPlayers GameResult.ofState GameResult.getState
    simp only [GameResult.mk.injEq, Res.mk.injEq, and_true, true_and]
    refine ⟨x.jigo.symm, ?_⟩
    cases x.cpuB <;> cases x.cpuW <;> simp [cpuTimeOf]
  · exact ⟨rfl, rfl, x.noWinner, Or.inl ⟨rfl, rfl⟩⟩

/-- The result of reporting an outcome: no exceptions except from writing the status file. `r` is what's recorded. -/
def Reported (P : Params) (s : RM) (fl : List Job) (add : Str → List GameResult) (r : Except RExc Unit × RM) : Prop :=
  (r.1 = .ok () ∧ RInv P r.2 fl ∧ ∀ m, savedIn r.2.disk m = savedIn s.disk m ++ add m) ∨
  (r.1 = .error .statusWrite ∧ r.2.disk = s.disk)

theorem RInv.processResponse {P : Params} {s : RM} {fl : List Job} {j : Job} (h : RInv P s (j :: fl)) (e : Env) (x : Outcome) :
    Reported P s fl (fun m => if m = j.matchupId then [j.result x] else []) (RM.processResponse e j x s) := by
  have hj : j ∈ s.inProgress := h.flight.mem_iff.1 (by simp)
  have ha : Apart s.inProgress := h.core.apart.sublist (List.sublist_append_left _ _)
  have hfil := ha.filter hj
  have hperm : (s.inProgress.filter (fun j' => j'.gameId ≠ j.gameId)).Perm fl := ha.filter_cons h.flight.symm
  have hc : Core P s.t (j :: (s.inProgress.filter (fun j' => j'.gameId ≠ j.gameId) ++ s.toReplay)) s.stopping :=
    h.core.perm (hfil.append_right s.toReplay)
  obtain ⟨h1, h2, h3, h4⟩ := hc.result (suits_result j x)
  unfold RM.processResponse
  rcases ht : s.t.processGameResult j (j.result x) with ⟨r, t⟩
  rw [ht] at h1 h2 h3 h4
  simp only at h1 h2 h3 h4
  subst h1
  simp only
  rw [ha.del hj]
  simp only
  unfold RM.writeStatus
  split
  · left
    obtain ⟨d1, d2⟩ := diskOk_save h2 s.voidGameCount
    refine ⟨rfl, ⟨h2, d2, d1, hperm.symm⟩, ?_⟩
    intro m
    rw [show savedIn _ m = t.results.get m from d2 m, h3, get_append, h.disk]
    split
    · rename_i hm; rw [hm]; simp
    · rename_i hm; simp [hm]
  · right; exact ⟨rfl, rfl⟩

theorem processGameError_facts (t : State) (j : Job) : (t.processGameError j).2.comp = t.comp ∧
    (t.processGameError j).2.scheduler = t.scheduler ∧ (t.processGameError j).2.results = t.results ∧
    ((t.processGameError j).1 = (true, false) ∨ (t.processGameError j).1 = (false, true)) := by
  unfold State.processGameError
  split
  · exact ⟨rfl, rfl, rfl, Or.inl rfl⟩
  · exact ⟨rfl, rfl, rfl, Or.inr rfl⟩

theorem RInv.processError {P : Params} {s : RM} {fl : List Job} {j : Job} (h : RInv P s (j :: fl)) (e : Env) :
    Reported P s fl (fun _ => []) (RM.processError e j s) := by
  have hj : j ∈ s.inProgress := h.flight.mem_iff.1 (by simp)
  have ha : Apart s.inProgress := h.core.apart.sublist (List.sublist_append_left _ _)
  have hfil := ha.filter hj
  have hperm : (s.inProgress.filter (fun j' => j'.gameId ≠ j.gameId)).Perm fl := ha.filter_cons h.flight.symm
  have hc : Core P s.t (j :: (s.inProgress.filter (fun j' => j'.gameId ≠ j.gameId) ++ s.toReplay)) s.stopping :=
    h.core.perm (hfil.append_right s.toReplay)
  obtain ⟨p1, p2, p3, p4⟩ := processGameError_facts s.t j
  have htc : ∀ (js : List Job) (b : Bool), Core P s.t js b → Core P (s.t.processGameError j).2 js b := by
    intro js b hcore
    obtain ⟨l, hl⟩ := hcore.tinv
    exact hcore.congr p1 p2 (fun m => by rw [p3]) (by rw [p3]; exact hl.pickle) (fun k hk => Or.inl (by rw [← p3]; exact hk))
  unfold RM.processError
  rcases p4 with p4 | p4
  · -- stop
    simp only [p4]
    simp only [Bool.not_true, Bool.and_false, Bool.true_and]
    unfold RM.bookError
    simp only [ha.del hj]
    unfold RM.writeStatus
    by_cases hok : e.diskOk = true
    · simp only [hok, if_true]
      left
      have h2 : Core P (s.t.processGameError j).2 (s.inProgress.filter (fun j' => j'.gameId ≠ j.gameId) ++ s.toReplay) true :=
        htc _ _ hc.drop
      obtain ⟨d1, d2⟩ := diskOk_save h2 (s.voidGameCount + 1)
      cases hs : s.stopping with
      | true =>
        refine ⟨rfl, ⟨h2, d2, d1, hperm.symm⟩, fun m => ?_⟩
        show savedIn (some (s.voidGameCount + 1, (s.t.processGameError j).2.save)) m = savedIn s.disk m ++ []
        rw [d2 m, h.disk m, p3, List.append_nil]
      | false =>
        refine ⟨rfl, ⟨h2, d2, d1, hperm.symm⟩, fun m => ?_⟩
        show savedIn (some (s.voidGameCount + 1, (s.t.processGameError j).2.save)) m = savedIn s.disk m ++ []
        rw [d2 m, h.disk m, p3, List.append_nil]
    · simp only [hok]
      right; exact ⟨rfl, rfl⟩
  · -- retry
    simp only [p4]
    simp only [Bool.not_false, Bool.and_true, Bool.false_and]
    unfold RM.bookError
    simp only [ha.del hj, if_true]
    unfold RM.writeStatus
    by_cases hok : e.diskOk = true
    · simp only [hok, if_true]
      left
      have har : Apart (j :: s.toReplay) := hc.apart.sublist (List.Sublist.cons_cons _ (List.sublist_append_right _ _))
      have h2 : Core P (s.t.processGameError j).2
          (s.inProgress.filter (fun j' => j'.gameId ≠ j.gameId) ++ storeJob s.toReplay j) s.stopping := by
        refine htc _ _ (hc.perm ?_)
        rw [har.store, ← List.append_assoc]
        exact (List.perm_append_singleton _ _).symm
      obtain ⟨d1, d2⟩ := diskOk_save h2 (s.voidGameCount + 1)
      refine ⟨rfl, ⟨h2, d2, d1, hperm.symm⟩, fun m => ?_⟩
      show savedIn (some (s.voidGameCount + 1, (s.t.processGameError j).2.save)) m = savedIn s.disk m ++ []
      rw [d2 m, h.disk m, p3, List.append_nil]
    · simp only [hok]
      right; exact ⟨rfl, rfl⟩

theorem preserves (P : Params) : Preserves source (RInv P) where
  perm := fun h hp => ⟨h.core, h.disk, h.diskOk, hp.symm.trans h.flight⟩
  none := by
    intro e s s' fl h hg
    obtain ⟨_, h2⟩ := h.getJob e
    have hg' : RM.getJob e s = (.ok none, s') := hg
    rw [hg'] at h2
    rcases h2 with ⟨j, h2, _⟩ | ⟨_, h3, _⟩
    · exact absurd h2 (by simp)
    · exact h3
  some := by
    intro e s s' fl j h hg
    obtain ⟨_, h2⟩ := h.getJob e
    have hg' : RM.getJob e s = (.ok (some j), s') := hg
    rw [hg'] at h2
    rcases h2 with ⟨j', h2, h3⟩ | ⟨h2, _⟩
    · simp only [Except.ok.injEq, Option.some.injEq] at h2
      rw [h2]; exact h3
    · exact absurd h2 (by simp)
  response := by
    intro e s s' fl j x u h hg
    have hg' : RM.processResponse e j x s = (.ok u, s') := hg
    have := h.processResponse e x
    rw [hg'] at this
    rcases this with ⟨_, h2, _⟩ | ⟨h2, _⟩
    · exact h2
    · exact absurd h2 (by simp)
  error := by
    intro e s s' fl j u h hg
    have hg' : RM.processError e j s = (.ok u, s') := hg
    have := h.processError e
    rw [hg'] at this
    rcases this with ⟨_, h2, _⟩ | ⟨h2, _⟩
    · exact h2
    · exact absurd h2 (by simp)

theorem rinv_start {P : Params} {c : Comp} {mg : Option Int} {disp : Bool} {disk : Option (Nat × Saved)} {s : RM} (hc : GoodComp c)
    (hf : P.Fits c) (hd : DiskOk P disk) (h : RM.start c mg disp disk = .ok s) : RInv P s [] ∧ s.disk = disk := by
  unfold RM.start at h
  split at h
  · simp only [Except.ok.injEq] at h
    rw [← h]
    refine ⟨RInv.updateDisplay ⟨core_clean hc hf, fun m => rfl, hd, List.Perm.refl _⟩ _, (updateDisplay_facts _ _).1⟩
  · rename_i v saved
    split at h
    · simp at h
    · rename_i t ht
      simp only [Except.ok.injEq] at h
      rw [← h]
      obtain ⟨h1, h2⟩ := core_load hc hf hd ht
      have h0 : RInv P ⟨t, v, [], [], [], mg, false, some (v, saved)⟩ [] := ⟨h1, fun m => (h2 m).symm, hd, List.Perm.refl _⟩
      exact ⟨h0.updateDisplay _, (updateDisplay_facts _ _).1⟩

/-! ### The job manager and the ringmaster together -/

structure UpInv (P : Params) (m : Mp RM Job Outcome RExc) : Prop where
  minv : MInv m
  diskOk : DiskOk P m.src.disk
  fine : m.phase.fine → RInv P m.src m.inFlight
  quiet : m.phase = .finishing none ∨ m.phase = .returned none → Quiet m.src
  raised : ∀ x, m.phase = .finishing (some x) ∨ m.phase = .returned (some x) → x = .statusWrite

/-- What one step does to the status file: nothing, or it adds what's given. -/
def Adds (d d' : Option (Nat × Saved)) (m : Str) (r : Option GameResult) : Prop :=
  ∀ k, savedIn d' k = savedIn d k ++ (if k = m then r.toList else [])

theorem adds_refl (d : Option (Nat × Saved)) (m : Str) : Adds d d m none := by intro k; simp

theorem UpInv.topOfLoop {P : Params} {m : Mp RM Job Outcome RExc} (h : UpInv P m) (hph : m.phase = .looping) (e : Env) :
    let m' := m.topOfLoop source e
    m'.src.disk = m.src.disk ∧ (m'.phase = .finishing none ∨ m'.phase = .returned none → Quiet m'.src) ∧
    (∀ x, m'.phase = .finishing (some x) ∨ m'.phase = .returned (some x) → x = .statusWrite) := by
  intro m'
  have hr := h.fine (by rw [hph]; trivial)
  have hafter : ∀ m1 : Mp RM Job Outcome RExc, Quiet m1.src → (m1.afterGet.phase = .finishing none ∨ m1.afterGet.phase = .returned none → Quiet m1.afterGet.src) := by
    intro m1 hq
    have : m1.afterGet.src = m1.src := by unfold Mp.afterGet; split <;> rfl
    rw [this]; exact fun _ => hq
  have hafter2 : ∀ (m1 : Mp RM Job Outcome RExc) x, ¬ (m1.afterGet.phase = .finishing (some x) ∨ m1.afterGet.phase = .returned (some x)) := by
    intro m1 x
    unfold Mp.afterGet
    split <;> simp [Mp.beginFinish]
  have hafter3 : ∀ m1 : Mp RM Job Outcome RExc, m1.afterGet.src = m1.src := by
    intro m1; unfold Mp.afterGet; split <;> rfl
  obtain ⟨a1, a2⟩ := hr.getJob e
  show (Mp.topOfLoop source e m).src.disk = _ ∧ ((Mp.topOfLoop source e m).phase = _ ∨ (Mp.topOfLoop source e m).phase = _ → Quiet (Mp.topOfLoop source e m).src) ∧
    ∀ x, (Mp.topOfLoop source e m).phase = _ ∨ (Mp.topOfLoop source e m).phase = _ → _
  unfold Mp.topOfLoop
  by_cases hlt : m.active < m.number
  · simp only [if_pos hlt]
    rcases hg : RM.getJob e m.src with ⟨x | _ | j, s⟩
    · rw [hg] at a2
      rcases a2 with ⟨j, h2, _⟩ | ⟨h2, _⟩ <;> exact absurd h2 (by simp)
    · have hg' : source.getJob e m.src = (.ok none, s) := hg
      rw [hg'] 
      rw [hg] at a1 a2
      simp only at a1 a2 ⊢
      rcases a2 with ⟨j, h2, _⟩ | ⟨_, _, h4⟩
      · exact absurd h2 (by simp)
      · refine ⟨?_, hafter _ h4, fun x hx => absurd hx (hafter2 _ x)⟩
        rw [hafter3]; exact a1
    · have hg' : source.getJob e m.src = (.ok (some j), s) := hg
      rw [hg']
      rw [hg] at a1
      simp only at a1 ⊢
      refine ⟨a1, ?_, ?_⟩
      · rintro (hc | hc) <;> rw [hph] at hc <;> exact absurd hc (by simp)
      · rintro x (hc | hc) <;> rw [hph] at hc <;> exact absurd hc (by simp)
  · rw [if_neg hlt]
    refine ⟨by rw [hafter3], ?_, fun x hx => absurd hx (hafter2 _ x)⟩
    intro hc
    exfalso
    have hp := h.minv.phase
    rw [hph] at hp
    have hpos := h.minv.base.pos
    have : 0 < m.active := by omega
    unfold Mp.afterGet at hc
    rw [if_neg (by omega)] at hc
    simp at hc

theorem UpInv.step {P : Params} {m : Mp RM Job Outcome RExc} (h : UpInv P m) (s : Step Outcome Env) :
    UpInv P (m.step source s) ∧
    ∀ k, savedIn (m.step source s).src.disk k = savedIn m.src.disk k ++
      (match stepRecords m s with
      | some (j, x) => if k = j.matchupId then [j.result x] else []
      | none => []) := by
  have hm := h.minv.step source s
  have hf := preserved_step (preserves P) s h.fine
  cases s with
  | take k =>
    have := take_src m k
    refine ⟨⟨hm, ?_, hf, ?_, ?_⟩, ?_⟩
    · show DiskOk P (m.take k).src.disk; rw [this.1]; exact h.diskOk
    · show (m.take k).phase = _ ∨ (m.take k).phase = _ → Quiet (m.take k).src; rw [this.1, this.2]; exact h.quiet
    · show ∀ x, (m.take k).phase = _ ∨ (m.take k).phase = _ → _; rw [this.2]; exact h.raised
    · intro k'; show savedIn (m.take k).src.disk k' = _; rw [this.1]; simp [stepRecords]
  | finishJob k x =>
    have := finishJob_src m k x
    refine ⟨⟨hm, ?_, hf, ?_, ?_⟩, ?_⟩
    · show DiskOk P (m.finishJob k x).src.disk; rw [this.1]; exact h.diskOk
    · show (m.finishJob k x).phase = _ ∨ (m.finishJob k x).phase = _ → Quiet (m.finishJob k x).src; rw [this.1, this.2]; exact h.quiet
    · show ∀ x', (m.finishJob k x).phase = _ ∨ (m.finishJob k x).phase = _ → _; rw [this.2]; exact h.raised
    · intro k'; show savedIn (m.finishJob k x).src.disk k' = _; rw [this.1]; simp [stepRecords]
  | mgr e =>
    have hstep : m.step source (.mgr e) = m.mgr source e := rfl
    rw [hstep] at hm hf ⊢
    cases hph : m.phase with
    | looping =>
      have he : m.mgr source e = m.topOfLoop source e := by unfold Mp.mgr; rw [hph]
      obtain ⟨a1, a2, a3⟩ := h.topOfLoop hph e
      rw [he] at hm hf ⊢
      refine ⟨⟨hm, by rw [a1]; exact h.diskOk, hf, a2, a3⟩, ?_⟩
      intro k; rw [a1]; simp [stepRecords, hph]
    | waiting =>
      have hr := h.fine (by rw [hph]; trivial)
      have he : m.mgr source e = m.takeResponse source e := by unfold Mp.mgr; rw [hph]
      rw [he] at hm hf ⊢
      -- the general form of what happens
      have key : ∀ (m1 : Mp RM Job Outcome RExc) (r : Except RExc Unit),
          (r = .ok () ∨ r = .error .statusWrite) →
          let m' := m1.endOfLoop r
          m'.src = m1.src ∧ (m'.phase = .finishing none ∨ m'.phase = .returned none → Quiet m'.src) ∧
          (∀ x, m'.phase = .finishing (some x) ∨ m'.phase = .returned (some x) → x = .statusWrite) := by
        intro m1 r hr
        rcases hr with rfl | rfl
        · refine ⟨rfl, ?_, ?_⟩
          · simp [Mp.endOfLoop]
          · simp [Mp.endOfLoop]
        · refine ⟨rfl, ?_, ?_⟩
          · simp [Mp.endOfLoop, Mp.beginFinish]
          · simp only [Mp.endOfLoop, Mp.beginFinish, Phase.finishing.injEq, Option.some.injEq, reduceCtorEq, or_false]
            rintro x rfl; rfl
      rcases hq : m.respQ with _ | ⟨⟨j, _ | x⟩, rest⟩
      · have : m.takeResponse source e = m := by unfold Mp.takeResponse; rw [hq]
        rw [this]
        exact ⟨h, by intro k; simp [stepRecords, hq]⟩
      · have htr : m.takeResponse source e = Mp.endOfLoop { m with respQ := rest, src := (RM.processError e j m.src).2, log := .error j :: m.log }
            (RM.processError e j m.src).1 := by unfold Mp.takeResponse; rw [hq]; rfl
        rw [htr] at hm hf ⊢
        have hr' : RInv P m.src (j :: (m.queued ++ m.running ++ rest.map Prod.fst)) := by
          refine (preserves P).perm hr ?_
          unfold Mp.inFlight; rw [hq]; exact List.perm_middle
        have hrep := hr'.processError e
        have hcase : (RM.processError e j m.src).1 = .ok () ∨ (RM.processError e j m.src).1 = .error .statusWrite := by
          rcases hrep with ⟨h1, _⟩ | ⟨h1, _⟩
          · exact Or.inl h1
          · exact Or.inr h1
        obtain ⟨k1, k2, k3⟩ := key { m with respQ := rest, src := (RM.processError e j m.src).2, log := .error j :: m.log } _ hcase
        have hnone : stepRecords m (.mgr e) = none := by simp [stepRecords, hq]
        rw [hnone]
        rcases hrep with ⟨_, h2, h3⟩ | ⟨_, h2⟩
        · refine ⟨⟨hm, by rw [k1]; exact h2.diskOk, hf, k2, k3⟩, ?_⟩
          intro k; rw [k1]; exact h3 k
        · refine ⟨⟨hm, by rw [k1]; exact h2 ▸ h.diskOk, hf, k2, k3⟩, ?_⟩
          intro k; rw [k1]
          show savedIn (RM.processError e j m.src).2.disk k = _
          rw [h2]; simp
      · have htr : m.takeResponse source e = Mp.endOfLoop { m with respQ := rest, src := (RM.processResponse e j x m.src).2, log := .response j x :: m.log }
            (RM.processResponse e j x m.src).1 := by unfold Mp.takeResponse; rw [hq]; rfl
        rw [htr] at hm hf ⊢
        have hr' : RInv P m.src (j :: (m.queued ++ m.running ++ rest.map Prod.fst)) := by
          refine (preserves P).perm hr ?_
          unfold Mp.inFlight; rw [hq]; exact List.perm_middle
        have hrep := hr'.processResponse e x
        have hok : (RM.processResponse e j x m.src).1 = .ok () ↔ e.diskOk = true := by
          have hj : j ∈ m.src.inProgress := hr'.flight.mem_iff.1 (by simp)
          unfold RM.processResponse RM.writeStatus at hrep ⊢
          by_cases hd : e.diskOk = true
          · simp only [hd, if_true] at hrep ⊢
            rcases hrep with ⟨h1, _⟩ | ⟨h1, _⟩
            · simp [h1]
            · exfalso
              revert h1
              split
              · simp
              · split <;> simp
          · simp only [hd] at hrep ⊢
            rcases hrep with ⟨h1, _⟩ | ⟨h1, _⟩
            · exfalso
              revert h1
              split
              · simp
              · split <;> simp
            · constructor
              · intro hc; exact absurd (h1.symm.trans hc) (by simp)
              · intro hc; exact absurd hc (by simp)
        have hcase : (RM.processResponse e j x m.src).1 = .ok () ∨ (RM.processResponse e j x m.src).1 = .error .statusWrite := by
          rcases hrep with ⟨h1, _⟩ | ⟨h1, _⟩
          · exact Or.inl h1
          · exact Or.inr h1
        obtain ⟨k1, k2, k3⟩ := key { m with respQ := rest, src := (RM.processResponse e j x m.src).2, log := .response j x :: m.log } _ hcase
        rcases hrep with ⟨h1, h2, h3⟩ | ⟨h1, h2⟩
        · refine ⟨⟨hm, by rw [k1]; exact h2.diskOk, hf, k2, k3⟩, ?_⟩
          have hsome : stepRecords m (.mgr e) = some (j, x) := by simp [stepRecords, hq, hph, hok.1 h1]
          rw [hsome]
          intro k; rw [k1]; exact h3 k
        · refine ⟨⟨hm, by rw [k1]; exact h2 ▸ h.diskOk, hf, k2, k3⟩, ?_⟩
          have hd : e.diskOk = false := by
            cases hd : e.diskOk with
            | false => rfl
            | true => rw [hok.2 hd] at h1; exact absurd h1 (by simp)
          have hnone : stepRecords m (.mgr e) = none := by simp [stepRecords, hq, hph, hd]
          rw [hnone]
          intro k; rw [k1]
          show savedIn (RM.processResponse e j x m.src).2.disk k = _
          rw [h2]; simp
    | finishing exc =>
      have he : m.mgr source e = if m.workers.all Worker.isStopped then { m with phase := .returned exc } else m := by
        unfold Mp.mgr; rw [hph]
      rw [he] at hm hf ⊢
      have hnone : stepRecords m (.mgr e) = none := by simp [stepRecords, hph]
      rw [hnone]
      split
      · rename_i hall
        rw [if_pos hall] at hm hf
        refine ⟨⟨hm, h.diskOk, hf, ?_, ?_⟩, fun k => by simp⟩
        · rintro (hc | hc)
          · exact absurd hc (by simp)
          · simp only [Phase.returned.injEq] at hc
            exact h.quiet (Or.inl (by rw [hph, hc]))
        · rintro x (hc | hc)
          · exact absurd hc (by simp)
          · simp only [Phase.returned.injEq] at hc
            exact h.raised x (Or.inl (by rw [hph, hc]))
      · exact ⟨h, fun k => by simp⟩
    | returned exc =>
      have he : m.mgr source e = m := by unfold Mp.mgr; rw [hph]
      have hnone : stepRecords m (.mgr e) = none := by simp [stepRecords, hph]
      rw [he, hnone]
      exact ⟨h, fun k => by simp⟩

theorem upInv_start {P : Params} {c : Comp} {mg : Option Int} {disp : Bool} {disk : Option (Nat × Saved)} {s : RM} (hc : GoodComp c)
    (hf : P.Fits c) (hd : DiskOk P disk) (h : RM.start c mg disp disk = .ok s) {n : Nat} (hn : 1 ≤ n) :
    UpInv P (Mp.start s n) ∧ (Mp.start s n : Mp RM Job Outcome RExc).src.disk = disk := by
  obtain ⟨h1, h2⟩ := rinv_start hc hf hd h
  refine ⟨⟨MInv.start s hn, h2 ▸ hd, fun _ => ?_, ?_, ?_⟩, h2⟩
  · have : (Mp.start s n : Mp RM Job Outcome RExc).inFlight = [] := by
      have h1 : (List.replicate n (Worker.idle : Worker Job)).filterMap Worker.job? = [] := by
        rw [List.filterMap_replicate_of_none rfl]
      simp [Mp.inFlight, Mp.queued, Mp.running, Mp.start, h1]
    rw [this]; exact h1
  · simp [Mp.start]
  · simp [Mp.start]

/-! ### Worlds -/

def WInv (P : Params) : World → Prop
  | .down d => DiskOk P d
  | .up m => UpInv P m

theorem WInv.disk {P : Params} {w : World} (h : WInv P w) : DiskOk P w.disk := by
  cases w with
  | down d => exact h
  | up m => exact h.diskOk

/-- The control file used by a `start` event satisfies the side conditions. -/
def Event.Ok (P : Params) : Event → Prop
  | .start c _ _ _ => ∀ comp, c.initialise = .ok comp → P.Fits comp
  | _ => True

theorem WInv.step {P : Params} {w : World} (h : WInv P w) {ev : Event} (he : ev.Ok P) :
    WInv P (w.step ev) ∧ ∀ k, (w.step ev).saved k = w.saved k ++
      (match w.records ev with
      | some (j, x) => if k = j.matchupId then [j.result x] else []
      | none => []) := by
  cases w with
  | down d =>
    cases ev with
    | start c mg disp n =>
      have hrec : (World.down d).records (.start c mg disp n) = none := rfl
      rw [hrec]
      have hcase : (World.down d).step (.start c mg disp n) = .down d ∨
          ∃ comp s, c.initialise = .ok comp ∧ RM.start comp mg disp d = .ok s ∧ 1 ≤ n ∧
            (World.down d).step (.start c mg disp n) = .up (Mp.start s n) := by
        simp only [World.step]
        cases hc : c.initialise with
        | error e => exact Or.inl rfl
        | ok comp =>
          simp only
          cases hs : RM.start comp mg disp d with
          | error e => exact Or.inl rfl
          | ok s =>
            simp only
            split
            · rename_i hn; exact Or.inr ⟨comp, s, rfl, hs, hn.1, rfl⟩
            · exact Or.inl rfl
      rcases hcase with hd | ⟨comp, s, hc, hs, hn, hu⟩
      · rw [hd]; exact ⟨h, fun k => by simp⟩
      · rw [hu]
        obtain ⟨h1, h2⟩ := upInv_start (goodComp hc) (he comp hc) h hs hn
        refine ⟨h1, ?_⟩
        intro k
        show savedIn (Mp.start s n : Mp RM Job Outcome RExc).src.disk k = savedIn d k ++ []
        rw [h2]; simp
    | step s => exact ⟨h, fun k => by simp [World.step, World.records]⟩
    | down => exact ⟨h, fun k => by simp [World.step, World.records]⟩
  | up m =>
    cases ev with
    | start c mg disp n => exact ⟨h, fun k => by simp [World.step, World.records]⟩
    | step s => exact UpInv.step h s
    | down => exact ⟨h.diskOk, fun k => by simp [World.step, World.records, World.saved, World.disk]⟩

theorem winv_after {P : Params} (events : List Event) (he : ∀ ev ∈ events, ev.Ok P) : WInv P (World.after events) := by
  have key : ∀ (l : List Event) (w : World), (∀ ev ∈ l, ev.Ok P) → WInv P w → WInv P (l.foldl World.step w) := by
    intro l
    induction l with
    | nil => intro w _ h; exact h
    | cons ev l ih =>
      intro w hl h
      exact ih _ (fun ev' h' => hl ev' (by simp [h'])) (h.step (hl ev (by simp))).1
  exact key events _ he (by intro v s h; simp at h)

/-- No side conditions. -/
def noParams : Params := ⟨fun _ => none, none⟩

theorem ok_noParams (ev : Event) : ev.Ok noParams := by
  cases ev with
  | start c mg disp n => exact fun comp _ => ⟨fun _ _ _ h => by simp [noParams] at h, fun _ h => by simp [noParams] at h⟩
  | step s => trivial
  | down => trivial

end Gomill.Tourn
