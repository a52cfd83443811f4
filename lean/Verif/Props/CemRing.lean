import Verif.Model.CemRing
import Verif.Spec.CemRing
import Verif.Spec.RingStory
import Verif.Lemmas.RingEffect
import Verif.Props.Cem
/-
C90: the CEM tuner run by the ringmaster.
-/
namespace Gomill.Cem
open Py Sched CemSpec Gomill.Ring Jobs

abbrev CAct := Act Tuner Job Res TExc
abbrev CState := RM Tuner Job Res Saved TExc

/-- The ids of games. -/
def gid (j : Job) : List Char := j.gameId

/-! ### The record -/

theorem scores_cons {a : CAct} (h : isReport a = false) (l : List CAct) : scores (a :: l) = scores l := by
  cases a <;> first | rfl | cases h

theorem scores_upTo (l : List CAct) : scores (upToReport l) = scores l := by
  induction l with
  | nil => rfl
  | cons a l ih =>
    unfold upToReport at *
    rw [List.dropWhile_cons]
    split
    · rename_i h
      rw [ih, scores_cons (by simpa using h)]
    · rfl

theorem fails_cons {a : CAct} (h : isReport a = false) {l : List CAct} (hl : FailuresHandled l) : FailuresHandled (a :: l) := by
  cases a <;> first | exact hl | cases h

/-- The jobs which the ringmaster is waiting for, with the number of times they have failed. -/
def pendingJobs (l : List CAct) : List (Job × Nat) :=
  (Ring.playing gid l ++ Ring.waiting gid l).map (fun j => (j, failures gid (gid j) l))

structure CInv (c : Config) (base : List (Py.Str × Rat)) (s : CState) : Prop where
  sys : ∃ S r, Reached c.samples c.batch c.batch S (some c) ∧ S.run = some r ∧ r.config = c ∧ r.tuner = s.comp ∧ (r.stopping = true ↔ Stopped s.acts) ∧
    r.jobs.Perm (pendingJobs s.acts) ∧ S.log = scores s.acts ++ base ∧ S.saved = s.disk.map Prod.snd ∧ S.savedLog = scores s.acts ++ base
  counted : ∀ i, failures gid i s.acts ≠ 0 → i ∈ (Ring.playing gid s.acts ++ Ring.waiting gid s.acts).map gid ∨ i ∈ (scores s.acts).map Prod.fst
  seen : s.comp.seenSuccess = true ↔ scores s.acts ≠ []
  fails : FailuresHandled s.acts
  last : s.acts.head? = some .noGame → s.comp.scheduler.issue.1 = none
  ids : ((offers s.acts).map gid).Nodup
  offered : ¬ Stopped s.acts → ∀ j ∈ offers s.acts, gid j ∈ (Ring.playing gid s.acts ++ Ring.waiting gid s.acts).map gid ∨ gid j ∈ (scores s.acts).map Prod.fst

/-- The exceptions which can end a run: a CompetitionError, or a failure to write the status file. -/
def Expected : RExc TExc → Prop
  | .comp .competitionError => True
  | .statusWrite => True
  | _ => False

/-- What the status file has. -/
def CSaved (c : Config) (log : List (Py.Str × Rat)) (d : Option (Nat × Saved)) : Prop :=
  ∃ S o, Reached c.samples c.batch c.batch S o ∧ (o = none ∨ o = some c) ∧ S.saved = d.map Prod.snd ∧ S.savedLog = log

/-- After an exception. -/
def CBad (c : Config) (base : List (Py.Str × Rat)) (x : RExc TExc) (s : CState) : Prop :=
  Expected x ∧ CSaved c (scores (withoutUnwritten (some x) s.acts) ++ base) s.disk

theorem CInv.saved {c : Config} {base : List (Py.Str × Rat)} {s : CState} (h : CInv c base s) : CSaved c (scores s.acts ++ base) s.disk := by
  obtain ⟨S, r, h1, h2, h3, h4, h5, h6, h7, h8, h9⟩ := h.sys
  exact ⟨S, some c, h1, Or.inr rfl, h8, h9⟩

theorem pending_names {l : List CAct} {jobs : List (Job × Nat)} (h : jobs.Perm (pendingJobs l)) :
    (jobs.map (·.1.gameId)).Perm ((Ring.playing gid l ++ Ring.waiting gid l).map gid) := by
  have := h.map (fun p : Job × Nat => p.1.gameId)
  unfold pendingJobs at this
  rw [List.map_map] at this
  exact this

/-- Something which changes neither the games which are being played or waiting, nor the results. -/
theorem CInv.other {c : Config} {base : List (Py.Str × Rat)} {s s' : CState} (h : CInv c base s) (hc : s'.comp = s.comp) (hd : s'.disk = s.disk) {a : CAct} (ha : a = .noGame ∨ a = .halted)
    (hacts : s'.acts = a :: s.acts) (hl : a = .noGame → s.comp.scheduler.issue.1 = none) : CInv c base s' := by
  obtain ⟨S, r, h1, h2, h3, h4, h5, h6, h7, h8, h9⟩ := h.sys
  rcases ha with rfl | rfl
  · refine ⟨⟨S, r, h1, h2, h3, by rw [hc]; exact h4, by rw [hacts]; exact h5, by rw [hacts]; exact h6, by rw [hacts]; exact h7, by rw [hd]; exact h8, by rw [hacts]; exact h9⟩,
      by rw [hacts]; exact h.counted, by rw [hc, hacts]; exact h.seen, by rw [hacts]; exact h.fails, fun _ => by rw [hc]; exact hl rfl, by rw [hacts]; exact h.ids, by rw [hacts]; exact h.offered⟩
  · refine ⟨⟨S.step .stop, { r with stopping := true }, h1.step .stop (by intro c e hx; cases hx), ?_, h3, by rw [hc]; exact h4, by rw [hacts]; exact ⟨fun _ => trivial, fun _ => rfl⟩,
      by rw [hacts]; exact h6, ?_, ?_, ?_⟩, by rw [hacts]; exact h.counted, by rw [hc, hacts]; exact h.seen, by rw [hacts]; exact h.fails, (fun hx => by rw [hacts] at hx; simp at hx),
      by rw [hacts]; exact h.ids, (fun hx => by rw [hacts] at hx; exact absurd trivial hx)⟩
    · simp only [Sys.step, h2]
    · simp only [Sys.step, h2]; rw [hacts]; exact h7
    · simp only [Sys.step, h2]; rw [hd]; exact h8
    · simp only [Sys.step, h2]; rw [hacts]; exact h9

/-- A game is started again. -/
theorem CInv.again {c : Config} {base : List (Py.Str × Rat)} {s s' : CState} (h : CInv c base s) (hc : s'.comp = s.comp) (hd : s'.disk = s.disk) {j : Job}
    (hacts : s'.acts = .again j :: s.acts) (ho : AllInOrder gid s'.acts) : CInv c base s' := by
  obtain ⟨S, r, h1, h2, h3, h4, h5, h6, h7, h8, h9⟩ := h.sys
  rw [hacts] at ho
  obtain ⟨⟨o1, o2⟩, o3⟩ := ho
  have hn := nodup_of o3
  rw [List.map_append, List.nodup_append] at hn
  have hp : (Ring.playing gid s'.acts ++ Ring.waiting gid s'.acts).Perm (Ring.playing gid s.acts ++ Ring.waiting gid s.acts) := by
    rw [hacts]
    exact List.perm_middle.symm.trans ((pop_perm hn.2.1 o2).append_left _)
  have hf : ∀ i, failures gid i s'.acts = failures gid i s.acts := by intro i; rw [hacts]; rfl
  have hsc : scores s'.acts = scores s.acts := by rw [hacts]; rfl
  refine ⟨⟨S, r, h1, h2, h3, by rw [hc]; exact h4, by rw [hacts]; exact h5, ?_, by rw [hsc]; exact h7, by rw [hd]; exact h8, by rw [hsc]; exact h9⟩, ?_,
    by rw [hc, hsc]; exact h.seen, by rw [hacts]; exact h.fails, (fun hx => by rw [hacts] at hx; simp at hx), by rw [hacts]; exact h.ids, ?_⟩
  · refine h6.trans ?_
    unfold pendingJobs
    simp only [hf]
    exact (hp.symm.map _)
  · intro i hi
    rw [hf] at hi
    rw [hsc, (hp.map gid).mem_iff]
    exact h.counted i hi
  · intro hst j' hj'
    rw [hsc, (hp.map gid).mem_iff]
    rw [hacts] at hst hj'
    exact h.offered hst j' hj'

/-- What `get_game` does in a reachable state. -/
theorem getGame_cases {n lo hi : Nat} {S : Sys} {o : Option Config} {r : Run} (h : Reached n lo hi S o) (hr : S.run = some r) (hst : r.stopping = false) (e : Env)
    {r0 : Except TExc (Option Job)} {t : Tuner} (hg : r.tuner.getGame r.config e = (r0, t)) :
    r0 = .error .competitionError ∨ (r0 = .ok none ∧ t = r.tuner ∧ r.tuner.scheduler.issue.1 = none) ∨
    (∃ j, r0 = .ok (some j) ∧ S.step (.getGame e) = { S with run := some { r with tuner := t, jobs := (j, 0) :: r.jobs } } ∧
      j.gameId ∉ r.jobs.map (·.1.gameId) ∧ j.gameId ∉ S.log.map (·.1)) := by
  obtain ⟨ho, l, cur, hl, hi, hlt⟩ := (reached_inv h).run r hr
  rcases getGame_inv hi e with ⟨t', hx⟩ | ⟨t', hx, _⟩ | ⟨j, t', hx, hi2, _⟩ <;> rw [hx] at hg <;> obtain ⟨rfl, rfl⟩ := Prod.mk.inj hg
  · exact Or.inl rfl
  · refine Or.inr (Or.inl ⟨rfl, ?_⟩)
    unfold Tuner.getGame at hx
    cases hi' : r.tuner.scheduler.issue with
    | mk p g =>
      rw [hi'] at hx
      cases p with
      | none =>
        obtain ⟨rfl, _⟩ := issue_none hi'
        simp only [Prod.mk.injEq] at hx
        exact ⟨hx.2.symm, rfl⟩
      | some q =>
        exfalso
        obtain ⟨i, round⟩ := q
        simp only at hx
        split at hx
        · split at hx <;> cases hx
        · cases hx
  · have hs : S.step (.getGame e) = { S with run := some { r with tuner := t', jobs := (j, 0) :: r.jobs } } := by
      simp only [Sys.step, hr, hst, Bool.false_eq_true, if_false, hx]
    refine Or.inr (Or.inr ⟨j, rfl, hs, ?_⟩)
    have h2 := h.step (.getGame e) (by intro c e hx; cases hx)
    rw [hs] at h2
    obtain ⟨_, n2, n3, _⟩ := C66_names h2 rfl
    rw [List.map_cons, List.nodup_cons] at n2
    exact ⟨n2.1, n3 (j, 0) (List.mem_cons_self ..)⟩

theorem CInv.offer {c : Config} {base : List (Py.Str × Rat)} {s s' : CState} (h : CInv c base s) (hd : s'.disk = s.disk) {j : Job} (hst : ¬ Stopped s.acts) (e : Env)
    (hg : s.comp.getGame c e = (.ok (some j), s'.comp)) (hacts : s'.acts = .offered j :: s.acts) : CInv c base s' := by
  obtain ⟨S, r, h1, h2, h3, h4, h5, h6, h7, h8, h9⟩ := h.sys
  have hrs : r.stopping = false := by
    rw [Bool.eq_false_iff]; exact fun hx => hst (h5.1 hx)
  rw [← h3, ← h4] at hg
  rcases getGame_cases h1 h2 hrs e hg with hx | ⟨hx, _⟩ | ⟨j', hx, hs, n1, n2⟩
  · cases hx
  · cases hx
  · have hj : j = j' := by simpa using hx
    subst hj
    have n1' : gid j ∉ (Ring.playing gid s.acts ++ Ring.waiting gid s.acts).map gid := fun hm => n1 ((pending_names h6).mem_iff.2 hm)
    have n2' : gid j ∉ (scores s.acts).map Prod.fst := by
      intro hm
      apply n2
      rw [h7, List.map_append]
      exact List.mem_append_left _ hm
    have hz : failures gid (gid j) s.acts = 0 := by
      by_contra hz
      rcases h.counted _ hz with hm | hm
      · exact n1' hm
      · exact n2' hm
    have hpend : (Ring.playing gid s'.acts ++ Ring.waiting gid s'.acts) = j :: (Ring.playing gid s.acts ++ Ring.waiting gid s.acts) := by rw [hacts]; rfl
    have hf : ∀ i, failures gid i s'.acts = failures gid i s.acts := by intro i; rw [hacts]; rfl
    have hsc : scores s'.acts = scores s.acts := by rw [hacts]; rfl
    refine ⟨⟨S.step (.getGame e), { r with tuner := s'.comp, jobs := (j, 0) :: r.jobs }, h1.step _ (by intro c e hx; cases hx), by rw [hs], h3, rfl, by rw [hacts]; exact h5, ?_,
      by rw [hs, hsc]; exact h7, by rw [hs, hd]; exact h8, by rw [hs, hsc]; exact h9⟩, ?_, ?_, by rw [hacts]; exact h.fails, (fun hx => by rw [hacts] at hx; simp at hx), ?_, ?_⟩
    · unfold pendingJobs
      rw [hpend, List.map_cons]
      simp only [hf, hz]
      exact h6.cons _
    · intro i hi
      rw [hf] at hi
      rw [hpend, hsc, List.map_cons]
      exact (h.counted i hi).imp (List.mem_cons_of_mem _) id
    · have hseen : s'.comp.seenSuccess = r.tuner.seenSuccess := by
        have := getGame_seen r.config e r.tuner
        rw [hg] at this; exact this
      rw [hseen, hsc, h4]; exact h.seen
    · rw [hacts]
      show (gid j :: (offers s.acts).map gid).Nodup
      rw [List.nodup_cons]
      refine ⟨fun hm => ?_, h.ids⟩
      obtain ⟨j', hj', he⟩ := List.mem_map.1 hm
      rcases h.offered hst j' hj' with hx | hx <;> rw [he] at hx
      · exact n1' hx
      · exact n2' hx
    · intro _ j' hj'
      rw [hacts] at hj'
      rw [hpend, hsc, List.map_cons]
      rcases List.mem_cons.1 (show j' ∈ j :: offers s.acts from hj') with rfl | hj'
      · exact Or.inl (List.mem_cons_self ..)
      · exact (h.offered hst j' hj').imp (List.mem_cons_of_mem _) id

theorem CInv.bad {c : Config} {base : List (Py.Str × Rat)} {s s' : CState} (h : CInv c base s) {x : RExc TExc} (hx : x = .comp .competitionError) (hd : s'.disk = s.disk)
    (hs : scores s'.acts = scores s.acts) : CBad c base x s' := by
  subst hx
  refine ⟨trivial, ?_⟩
  show CSaved c (scores s'.acts ++ base) s'.disk
  rw [hs, hd]; exact h.saved

theorem getJob_tuner (c : Config) (base : List (Py.Str × Rat)) {v0 : Nat} {d0 : Option (Nat × Saved)} {mg : Option Int}
    {s s' : CState} {fl : List Job} (hr : RInv (tunerCompetition c) v0 d0 mg s fl) (ht : CInv c base s)
    (e : Ring.Env Env) {r : Except (RExc TExc) (Option Job)} (hg : RM.getJob (tunerCompetition c) e s = (r, s')) (ho : ∀ o, r = .ok o → AllInOrder gid s'.acts) :
    (∀ o, r = .ok o → CInv c base s') ∧ ∀ x, r = .error x → CBad c base x s' := by
  unfold RM.getJob at hg
  rcases hj : s.getJob1 (tunerCompetition c) e with ⟨r1, s1⟩
  rw [hj] at hg
  obtain ⟨hd, hcase⟩ := getJob1_effect _ e s hj
  have hnd : ∀ {j t}, s.stopping = false → s.comp.getGame c e.call = (.ok (some j), t) → gid j ∉ s.inProgress.map gid := by
    intro j t hst hgg hm
    obtain ⟨S, r, h1, h2, h3, h4, h5, h6, h7, h8, h9⟩ := ht.sys
    have hrs : r.stopping = false := by
      rw [Bool.eq_false_iff]
      intro hx
      rw [(hr.stop).2 (h5.1 hx)] at hst; cases hst
    rw [← h3, ← h4] at hgg
    rcases getGame_cases h1 h2 hrs e.call hgg with hx | ⟨hx, _⟩ | ⟨j', hx, hs, n1, n2⟩
    · cases hx
    · cases hx
    · have hj : j = j' := by simpa using hx
      subst hj
      refine n1 ((pending_names h6).mem_iff.2 ?_)
      rw [List.map_append]
      exact List.mem_append_left _ (((hr.playing.map gid).mem_iff).2 hm)
  have herr : ∀ {t y}, s.comp.getGame c e.call = (.error y, t) → y = .competitionError := by
    intro t y hgg
    obtain ⟨S, r, h1, h2, h3, h4, _⟩ := ht.sys
    obtain ⟨_, l, cur, _, hi, _⟩ := (reached_inv h1).run r h2
    rw [← h3, ← h4] at hgg
    rcases getGame_inv hi e.call with ⟨t', hx⟩ | ⟨t', hx, _⟩ | ⟨j, t', hx, _⟩ <;> rw [hx] at hgg <;> simp only [Prod.mk.injEq, reduceCtorEq, false_and] at hgg
    have := hgg.1
    injection this with this; exact this.symm
  -- the results don't change
  have hscore : scores s1.acts = scores s.acts ∧ ∀ y, r1 = .error y → y = .comp .competitionError := by
    rcases hcase with ⟨e1, e2, e3, e4⟩ | ⟨j, hj, e1, e2, e3, e4⟩ | ⟨hst, e2, e3, e4, e5⟩
    · refine ⟨?_, (fun y hy => by rw [e1] at hy; cases hy)⟩
      rcases e4 with e4 | e4 <;> rw [e4] <;> rfl
    · exact ⟨by rw [e3]; rfl, (fun y hy => by rw [e1] at hy; cases hy)⟩
    · rcases hgg : (tunerCompetition c).getGame e.call s.comp with ⟨g, t⟩
      rw [hgg] at e5
      have hgg' : s.comp.getGame c e.call = (g, t) := hgg
      rcases g with y | _ | j <;> simp only [GetEffect] at e5
      · refine ⟨by rw [e5.2]; rfl, fun y' hy' => ?_⟩
        rw [e5.1] at hy'
        injection hy' with hy'
        rw [← hy', herr hgg']
      · exact ⟨by rw [e5.2]; rfl, (fun y hy => by rw [e5.1] at hy; cases hy)⟩
      · rcases e5 with ⟨e5, _⟩ | ⟨e5, e6⟩
        · exact absurd e5 (hnd hst hgg')
        · exact ⟨by rw [e6]; rfl, (fun y hy => by rw [e5] at hy; cases hy)⟩
  rcases r1 with x | o <;> simp only at hg
  · simp only [Prod.mk.injEq] at hg
    obtain ⟨rfl, rfl⟩ := hg
    refine ⟨(fun o hx => by cases hx), fun y hy => ?_⟩
    injection hy with hy
    subst hy
    exact ht.bad (hscore.2 _ rfl) hd hscore.1
  · rcases hu : s1.updateDisplay (tunerCompetition c) e.display e.report with ⟨y | u, s2⟩ <;> rw [hu] at hg <;> simp only at hg <;>
      simp only [Prod.mk.injEq] at hg <;> obtain ⟨rfl, rfl⟩ := hg
    all_goals
      have heff := updateDisplay_effect (tunerCompetition c) (y := .competitionError) (fun e t => by simp only [tunerCompetition]; split <;> simp) hu
    · rcases heff with ⟨hx, _⟩ | ⟨hx, h2, h3⟩
      · cases hx
      · refine ⟨(fun o hx => by cases hx), fun x' hx' => ?_⟩
        injection hx with hx
        injection hx' with hx'
        subst hx'
        refine ht.bad hx (h2.trans hd) ?_
        rw [h3]; exact hscore.1
    · rcases heff with ⟨_, rfl⟩ | ⟨hx, _⟩
      · refine ⟨fun _ _ => ?_, (fun x hx => by cases hx)⟩
        have ho' := ho o rfl
        rcases hcase with ⟨e1, e2, e3, e4⟩ | ⟨j, hj, e1, e2, e3, e4⟩ | ⟨hst, e2, e3, e4, e5⟩
        · rcases e4 with e4 | e4
          · obtain ⟨S, r, h1, h2, h3, h4, h5, h6, h7, h8, h9⟩ := ht.sys
            exact ⟨⟨S, r, h1, h2, h3, by rw [e2]; exact h4, by rw [e4]; exact h5, by rw [e4]; exact h6, by rw [e4]; exact h7, by rw [hd]; exact h8, by rw [e4]; exact h9⟩,
              by rw [e4]; exact ht.counted, by rw [e2, e4]; exact ht.seen, by rw [e4]; exact ht.fails, by rw [e2, e4]; exact ht.last, by rw [e4]; exact ht.ids, by rw [e4]; exact ht.offered⟩
          · exact ht.other e2 hd (Or.inr rfl) e4 (fun hx => by cases hx)
        · exact ht.again e2 hd e3 ho'
        · have hns : ¬ Stopped s.acts := fun hx => by rw [hr.stop.2 hx] at hst; cases hst
          rcases hgg : (tunerCompetition c).getGame e.call s.comp with ⟨g, t⟩
          rw [hgg] at e5 e4
          simp only at e4
          have hgg' : s.comp.getGame c e.call = (g, t) := hgg
          rcases g with y | _ | j <;> simp only [GetEffect] at e5
          · cases e5.1
          · obtain ⟨S, r, h1, h2, h3, h4, h5, h6, h7, h8, h9⟩ := ht.sys
            have hrs : r.stopping = false := by
              rw [Bool.eq_false_iff]
              intro hx
              exact hns (h5.1 hx)
            have hgg2 := hgg'
            rw [← h3, ← h4] at hgg2
            rcases getGame_cases h1 h2 hrs e.call hgg2 with hx | ⟨_, hx, hx2⟩ | ⟨j', hx, _⟩
            · cases hx
            · exact ht.other (by rw [e4, hx, h4]) hd (Or.inl rfl) e5.2 (fun _ => by rw [← h4]; exact hx2)
            · cases hx
          · rcases e5 with ⟨e5, _⟩ | ⟨e5, e6⟩
            · exact absurd e5 (hnd hst hgg')
            · exact ht.offer hd hns e.call (by rw [e4]; exact hgg') e6
      · cases hx

/-! ### Reports -/

/-- A game which is being played is one of the jobs of the system; and what is left when it has been reported. -/
theorem playing_job {l : List CAct} {jobs : List (Job × Nat)} (hp : jobs.Perm (pendingJobs l)) (ho : AllInOrder gid l) {j : Job} (hj : j ∈ Ring.playing gid l) :
    (Ring.playing gid l ++ Ring.waiting gid l).Perm (j :: ((Ring.playing gid l).filter (fun j' => gid j' ≠ gid j) ++ Ring.waiting gid l)) ∧
    (∀ j' ∈ (Ring.playing gid l).filter (fun j' => gid j' ≠ gid j) ++ Ring.waiting gid l, gid j' ≠ gid j) ∧
    ∃ k, jobs[k]? = some (j, failures gid (gid j) l) ∧
      (jobs.eraseIdx k).Perm (((Ring.playing gid l).filter (fun j' => gid j' ≠ gid j) ++ Ring.waiting gid l).map (fun j => (j, failures gid (gid j) l))) ∧
      ∀ a, (jobs.set k a).Perm (a :: jobs.eraseIdx k) := by
  have hn := nodup_of ho
  have hn' := hn
  rw [List.map_append, List.nodup_append] at hn
  have hperm : (Ring.playing gid l ++ Ring.waiting gid l).Perm (j :: ((Ring.playing gid l).filter (fun j' => gid j' ≠ gid j) ++ Ring.waiting gid l)) :=
    ((pop_perm hn.1 hj).symm.append_right _)
  have hnd := (hperm.map gid).nodup_iff.1 hn'
  rw [List.map_cons, List.nodup_cons] at hnd
  refine ⟨hperm, fun j' hj' he => hnd.1 (List.mem_map.2 ⟨j', hj', he⟩), ?_⟩
  have hmem : (j, failures gid (gid j) l) ∈ jobs := hp.mem_iff.2 (List.mem_map.2 ⟨j, List.mem_append_left _ hj, rfl⟩)
  obtain ⟨k, hk⟩ := List.mem_iff_getElem?.1 hmem
  have hlt : k < jobs.length := by
    by_contra hx
    rw [List.getElem?_eq_none (by omega)] at hk; cases hk
  have hk' : jobs[k] = (j, failures gid (gid j) l) := by
    rw [List.getElem?_eq_getElem hlt] at hk; exact Option.some.inj hk
  refine ⟨k, hk, ?_, fun a => List.set_perm_cons_eraseIdx hlt a⟩
  have h1 := List.getElem_cons_eraseIdx_perm hlt
  rw [hk'] at h1
  have h2 := hperm.map (fun j => (j, failures gid (gid j) l))
  rw [List.map_cons] at h2
  exact ((h1.trans hp).trans h2).cons_inv

theorem winner_score {c : Config} {g : Nat} {j : Job} (hok : c.Ok) (h : IsJob c g j) (x : Res) : gameScore j.code (j.result x).winningPlayer = candidateScore j x := by
  unfold candidateScore
  rcases score_eq hok h x with ⟨h1, _, h3⟩ | ⟨_, h2, h3⟩
  · rw [h3, if_pos h1]
  · rw [h3, if_neg h2]

theorem processResponse_tuner (c : Config) (base : List (Py.Str × Rat)) {v0 : Nat} {d0 : Option (Nat × Saved)} {mg : Option Int}
    {s s' : CState} {fl : List Job} {j : Job} (hr : RInv (tunerCompetition c) v0 d0 mg s (j :: fl))
    (ht : CInv c base s) (e : Ring.Env Env) {x : Res} {r : Except (RExc TExc) Unit}
    (hg : RM.processResponse (tunerCompetition c) e j x s = (r, s')) :
    (∀ u, r = .ok u → CInv c base s') ∧ ∀ y, r = .error y → CBad c base y s' := by
  have hn := hr.nodup
  rw [List.map_append, List.nodup_append] at hn
  have hin := hr.flight.mem_iff.1 (List.mem_cons_self ..)
  obtain ⟨h1, h2, h3⟩ := processResponse_effect _ e s x hn.1 hin hg
  have hpl : j ∈ Ring.playing gid s.acts := hr.playing.mem_iff.2 hin
  obtain ⟨S, q, s1, s2, s3, s4, s5, s6, s7, s8, s9⟩ := ht.sys
  obtain ⟨hperm, hne, k, hk, her, _⟩ := playing_job s6 hr.order hpl
  obtain ⟨_, l, cur, hl, hi, _⟩ := (reached_inv s1).run q s2
  have hjob := hi.jobs _ (List.mem_of_getElem? hk)
  have hw := winner_score hi.ok hjob x
  simp only at hw
  have hres := result_inv hi hk x e.call
  rw [s3, s4] at hres
  simp only at hres
  have hpr : (∃ t, s.comp.processResult c e.call j (j.result x) = .ok t ∧ (tunerCompetition c).processResult e.call j x s.comp = (.ok (), t)) ∨
      (tunerCompetition c).processResult e.call j x s.comp = (.error .competitionError, s.comp) := by
    simp only [tunerCompetition]
    rcases hres with hx | ⟨t, hx, _⟩
    · rw [hx]; exact Or.inr rfl
    · rw [hx]; exact Or.inl ⟨t, rfl, rfl⟩
  rcases hpr with ⟨t, ht1, hpr⟩ | hpr <;> rw [hpr] at h1 h3 <;> simp only at h1 h3
  · rcases h3 with ⟨y, e1, _⟩ | ⟨u, e1, e2, e3⟩
    · cases e1
    · rcases e3 with ⟨rfl, e3⟩ | ⟨rfl, e3⟩
      · refine ⟨(fun u hx => by cases hx), fun y hy => ?_⟩
        injection hy with hy
        subst hy
        refine ⟨trivial, ?_⟩
        rw [e2, e3]
        exact ht.saved
      · refine ⟨fun _ _ => ?_, (fun y hx => by cases hx)⟩
        have hstep : S.step (.result k x e.call true) = { S with
            run := some { q with tuner := t, jobs := q.jobs.eraseIdx k }, saved := some t.save, log := (j.gameId, candidateScore j x) :: S.log, savedLog := (j.gameId, candidateScore j x) :: S.log } := by
          simp only [Sys.step, s2, hk]
          rw [s3, s4, ht1]
          simp only [Sys.writeStatus, if_true, hw]
        have hsc : scores s'.acts = (gid j, candidateScore j x) :: scores s.acts := by rw [e2]; rfl
        have hf : ∀ i, failures gid i s'.acts = failures gid i s.acts := by intro i; rw [e2]; rfl
        have hpend : Ring.playing gid s'.acts ++ Ring.waiting gid s'.acts = (Ring.playing gid s.acts).filter (fun j' => gid j' ≠ gid j) ++ Ring.waiting gid s.acts := by rw [e2]; rfl
        have move : ∀ {i}, (i ∈ (Ring.playing gid s.acts ++ Ring.waiting gid s.acts).map gid ∨ i ∈ (scores s.acts).map Prod.fst) →
            (i ∈ (Ring.playing gid s'.acts ++ Ring.waiting gid s'.acts).map gid ∨ i ∈ (scores s'.acts).map Prod.fst) := by
          intro i hx
          rw [hpend, hsc, List.map_cons]
          rcases hx with hx | hx
          · rw [(hperm.map gid).mem_iff, List.map_cons] at hx
            rcases List.mem_cons.1 hx with hx | hx
            · exact Or.inr (hx ▸ List.mem_cons_self ..)
            · exact Or.inl hx
          · exact Or.inr (List.mem_cons_of_mem _ hx)
        refine ⟨⟨S.step (.result k x e.call true), { q with tuner := t, jobs := q.jobs.eraseIdx k }, s1.step _ (by intro c e hx; cases hx), by rw [hstep], s3, h1.symm, by rw [e2]; exact s5, ?_,
          by rw [hstep, hsc]; simp only [s7]; rfl, by rw [hstep, e3, h1]; rfl, by rw [hstep, hsc]; simp only [s7]; rfl⟩, ?_, ?_, by rw [e2]; exact ht.fails, (fun hx => by rw [e2] at hx; simp at hx), by rw [e2]; exact ht.ids, ?_⟩
        · unfold pendingJobs
          rw [hpend]
          simp only [hf]
          exact her
        · intro i hi
          rw [hf] at hi
          exact move (ht.counted i hi)
        · rw [h1, processResult_seen ht1, hsc]; simp
        · intro hst j' hj'
          rw [e2] at hst hj'
          exact move (ht.offered hst j' hj')
  · rcases h3 with ⟨y, e1, rfl, e3, e4⟩ | ⟨u, e1, e2, e3⟩
    · injection e1 with e1
      subst e1
      refine ⟨(fun u hx => by cases hx), fun x' hx' => ?_⟩
      injection hx' with hx'
      refine ht.bad hx'.symm e3 ?_
      rw [e4]; rfl
    · cases e1

theorem processError_tuner (c : Config) (base : List (Py.Str × Rat)) {v0 : Nat} {d0 : Option (Nat × Saved)} {mg : Option Int}
    {s s' : CState} {fl : List Job} {j : Job} (hr : RInv (tunerCompetition c) v0 d0 mg s (j :: fl))
    (ht : CInv c base s) (e : Ring.Env Env) {r : Except (RExc TExc) Unit}
    (hg : RM.processError (tunerCompetition c) e j s = (r, s')) :
    (∀ u, r = .ok u → CInv c base s') ∧ ∀ y, r = .error y → CBad c base y s' := by
  have hn := hr.nodup
  rw [List.map_append, List.nodup_append] at hn
  have hin := hr.flight.mem_iff.1 (List.mem_cons_self ..)
  obtain ⟨h1, h3⟩ := processError_effect _ e s hn.1 hin hg
  have hpl : j ∈ Ring.playing gid s.acts := hr.playing.mem_iff.2 hin
  obtain ⟨S, q, s1, s2, s3, s4, s5, s6, s7, s8, s9⟩ := ht.sys
  obtain ⟨hperm, hne, k, hk, her, hset⟩ := playing_job s6 hr.order hpl
  have hcount := hr.counts ((tunerCompetition c).gameId j)
  have hcount' : errorCount s.errorCounts ((tunerCompetition c).gameId j) = failures gid (gid j) s.acts := hcount
  rw [hcount'] at h1 h3
  generalize hn0 : failures gid (gid j) s.acts = n0 at *
  have hpr : (tunerCompetition c).processError e.call j n0 s.comp = (.ok (s.comp.processError n0), s.comp) := rfl
  rw [hpr] at h1 h3
  simp only at h1 h3
  rcases h3 with ⟨y, e1, _⟩ | ⟨stop, retry, e1, e2, e4, e3⟩
  · cases e1
  · injection e1 with e1
    rcases e3 with ⟨rfl, e3⟩ | ⟨rfl, e3⟩
    · refine ⟨(fun u hx => by cases hx), fun y hy => ?_⟩
      injection hy with hy
      subst hy
      refine ⟨trivial, ?_⟩
      rw [e2, e3]
      exact ht.saved
    · refine ⟨fun _ _ => ?_, (fun y hx => by cases hx)⟩
      have hsc : scores s'.acts = scores s.acts := by rw [e2]; rfl
      have hfails : FailuresHandled s'.acts := by
        rw [e2]
        refine ⟨?_, ?_, ht.fails⟩
        · have := ht.seen
          unfold Tuner.processError at e1
          cases hss : s.comp.seenSuccess <;> rw [hss] at e1 this
          · have hnil : scores s.acts = [] := by
              by_contra hx
              have := this.2 hx
              cases this
            simp only [Bool.not_false, Bool.true_or, if_true, Prod.mk.injEq] at e1
            rw [← e1.1]; exact ⟨fun _ => Or.inl hnil, fun _ => rfl⟩
          · have hnil := this.1 rfl
            simp only [Bool.not_true, Bool.false_or, decide_eq_true_eq] at e1
            split at e1 <;> simp only [Prod.mk.injEq] at e1 <;> rw [← e1.1]
            · rename_i hp
              exact ⟨fun _ => Or.inr hp, fun _ => rfl⟩
            · rename_i hp
              exact ⟨(fun hx => by cases hx), fun hx => hx.elim (fun hx => absurd hx hnil) (fun hx => absurd hx hp)⟩
        · rcases processError_or s.comp n0 with hx | hx <;> rw [hx] at e1 <;> simp only [Prod.mk.injEq] at e1 <;> rw [← e1.1, ← e1.2] <;> rfl
      have hids : ((offers s'.acts).map gid).Nodup := by rw [e2]; exact ht.ids
      have hlast : s'.acts.head? = some .noGame → s'.comp.scheduler.issue.1 = none := by intro hx; rw [e2] at hx; simp at hx
      have hseen : s'.comp.seenSuccess = true ↔ scores s'.acts ≠ [] := by rw [h1, hsc]; exact ht.seen
      have hreach : Reached c.samples c.batch c.batch (S.step (.error k true)) (some c) := s1.step _ (by intro c e hx; cases hx)
      rcases processError_or s.comp n0 with hx | hx <;> rw [hx] at e1 <;> simp only [Prod.mk.injEq] at e1 <;> obtain ⟨rfl, rfl⟩ := e1
      · have hstep : S.step (.error k true) = { S with
            run := some { q with jobs := q.jobs.eraseIdx k, stopping := true }, saved := some q.tuner.save, savedLog := S.log } := by
          simp only [Sys.step, s2, hk]
          rw [s4, hx]
          simp [Sys.writeStatus]
        have hpend : Ring.playing gid s'.acts ++ Ring.waiting gid s'.acts = (Ring.playing gid s.acts).filter (fun j' => gid j' ≠ gid j) ++ Ring.waiting gid s.acts := by rw [e2]; rfl
        have hf : ∀ i, failures gid i s'.acts = if gid j = i then 0 else failures gid i s.acts := by intro i; rw [e2]; rfl
        refine ⟨⟨S.step (.error k true), { q with jobs := q.jobs.eraseIdx k, stopping := true }, hreach, by rw [hstep], s3, by rw [h1]; exact s4, by rw [e2]; exact ⟨fun _ => trivial, fun _ => rfl⟩, ?_,
          by rw [hstep, hsc]; exact s7, by rw [hstep, e3, h1, s4]; rfl, by rw [hstep, hsc]; exact s7⟩, ?_, hseen, hfails, hlast, hids, (fun hx => by rw [e2] at hx; exact absurd trivial hx)⟩
        · unfold pendingJobs
          rw [hpend]
          refine her.trans (List.Perm.of_eq (List.map_congr_left ?_))
          intro j' hj'
          rw [hf, if_neg (hne j' hj').symm]
        · intro i hi
          rw [hf] at hi
          split at hi
          · exact absurd rfl hi
          · rename_i hij
            rw [hpend, hsc]
            rcases ht.counted i hi with hx | hx
            · rw [(hperm.map gid).mem_iff, List.map_cons] at hx
              rcases List.mem_cons.1 hx with hx | hx
              · exact absurd hx.symm hij
              · exact Or.inl hx
            · exact Or.inr hx
      · have hstep : S.step (.error k true) = { S with
            run := some { q with jobs := q.jobs.set k (j, n0 + 1) }, saved := some q.tuner.save, savedLog := S.log } := by
          simp only [Sys.step, s2, hk]
          rw [s4, hx]
          simp [Sys.writeStatus]
        have hpend : Ring.playing gid s'.acts ++ Ring.waiting gid s'.acts = (Ring.playing gid s.acts).filter (fun j' => gid j' ≠ gid j) ++ j :: Ring.waiting gid s.acts := by rw [e2]; rfl
        have hf : ∀ i, failures gid i s'.acts = if gid j = i then failures gid i s.acts + 1 else failures gid i s.acts := by intro i; rw [e2]; rfl
        have hpp : (Ring.playing gid s'.acts ++ Ring.waiting gid s'.acts).Perm (Ring.playing gid s.acts ++ Ring.waiting gid s.acts) := by
          rw [hpend]
          exact List.perm_middle.trans hperm.symm
        refine ⟨⟨S.step (.error k true), { q with jobs := q.jobs.set k (j, n0 + 1) }, hreach, by rw [hstep], s3, by rw [h1]; exact s4, by rw [e2]; exact s5, ?_,
          by rw [hstep, hsc]; exact s7, by rw [hstep, e3, h1, s4]; rfl, by rw [hstep, hsc]; exact s7⟩, ?_, hseen, hfails, hlast, hids, ?_⟩
        · unfold pendingJobs
          rw [hpend]
          refine (hset _).trans ?_
          rw [List.map_append, List.map_cons]
          refine List.Perm.trans ?_ List.perm_middle.symm
          rw [hf, if_pos rfl, hn0, ← List.map_append]
          refine List.Perm.cons _ (her.trans (List.Perm.of_eq (List.map_congr_left ?_)))
          intro j' hj'
          rw [hf, if_neg (hne j' hj').symm]
        · intro i hi
          rw [(hpp.map gid).mem_iff, hsc]
          by_cases hij : gid j = i
          · exact Or.inl (hij ▸ List.mem_map_of_mem (List.mem_append_left _ hpl))
          · rw [hf, if_neg hij] at hi
            exact ht.counted i hi
        · intro hst j' hj'
          rw [(hpp.map gid).mem_iff, hsc]
          rw [e2] at hst hj'
          exact ht.offered hst j' hj'

/-! ### Runs -/

/-- What is fixed for a run: the number of void games, the status file and max-games at its start, and the results of the earlier runs. -/
structure RunStart where
  voids : Nat
  disk : Option (Nat × Saved)
  maxGames : Option Int
  base : List (Py.Str × Rat)

theorem start_tuner {c : Config} (h : c.Ok) {base : List (Py.Str × Rat)} {d : Option (Nat × Saved)} (hd : CSaved c base d) {mg : Option Int} {e : Ring.Env Env} {s : CState}
    (hs : RM.start (tunerCompetition c) mg e d = some s) : CInv c base s := by
  obtain ⟨S, o, r1, r2, r3, r4⟩ := hd
  obtain ⟨t, t0, f1, f2, f3, f4, f5⟩ := start_facts _ hs
  have ht : t = t0 := by
    cases hdis : e.display with
    | false => exact f4 hdis
    | true =>
      obtain ⟨u, hu⟩ := f5 hdis
      simp only [tunerCompetition, Prod.mk.injEq] at hu
      exact hu.2.symm
  subst ht
  have hrun : startRun c e.call S.saved = .ok ⟨c, t, [], false⟩ := by
    rw [r3]
    cases d with
    | none =>
      obtain ⟨f6, _⟩ := f2 rfl
      simp only [tunerCompetition] at f6
      simp only [Option.map_none, startRun, f6]
    | some p =>
      obtain ⟨v, sv⟩ := p
      obtain ⟨f6, _⟩ := f3 v sv rfl
      simp only [tunerCompetition] at f6
      simp only [Option.map_some, startRun, f6]
  have hdown := r1.step .down (by intro c e hx; cases hx)
  have hreach := hdown.start c e.call rfl h rfl ⟨Nat.le_refl _, Nat.le_refl _⟩ (by
    intro o' sv ho hsv
    rcases r2 with r2 | r2 <;> rw [r2] at ho
    · cases ho
    · cases ho; exact Or.inr ⟨rfl, rfl⟩)
  have hstep : (S.step .down).step (.start c e.call) = { S with run := some ⟨c, t, [], false⟩, log := S.savedLog } := by
    simp only [Sys.step, hrun]
  have hacts : s.acts = [] := by rw [f1]
  have hcomp : s.comp = t := by rw [f1]
  have hseen := startRun_seen hrun
  simp only at hseen
  refine ⟨⟨_, ⟨c, t, [], false⟩, hreach, by rw [hstep], rfl, hcomp.symm, by rw [hacts]; exact ⟨(fun hx => by cases hx), fun hx => absurd hx id⟩, by rw [hacts]; exact List.Perm.refl _,
    by rw [hstep, hacts]; exact r4, by rw [hstep, f1]; exact r3, by rw [hstep, hacts]; exact r4⟩, ?_, ?_, ?_, ?_, ?_, ?_⟩
  · rw [hacts]; intro i hi; exact absurd rfl hi
  · rw [hacts, hcomp, hseen]; exact ⟨(fun hx => by cases hx), fun hx => absurd rfl hx⟩
  · rw [hacts]; trivial
  · rw [hacts]; intro hx; cases hx
  · rw [hacts]; exact List.nodup_nil
  · rw [hacts]; intro _ j hj; cases hj

/-- The invariant of histories. -/
def THolds (c : Config) (runs : List (List CAct)) : World Tuner Job Res Saved TExc → Prop :=
  Holds (fun d runs => CSaved c (runs.flatMap scores) d) (fun runs (t : RunStart) => t.base = runs.flatMap scores)
    (fun t s fl => RInv (tunerCompetition c) t.voids t.disk t.maxGames s fl ∧ CInv c t.base s)
    (fun t x s => CBad c t.base x s) runs

theorem tuner_holds {c : Config} (h : c.Ok) (events : List (Event Res Env)) :
    THolds c (earlierRuns (tunerCompetition c) events) (World.after (tunerCompetition c) events) := by
  refine story_holds (tunerCompetition c) ?_ ?_ ?_ ?_ ?_ ?_ ?_ ?_ events
  · exact ⟨_, none, Reached.init, Or.inl rfl, rfl, rfl⟩
  · intro d runs mg e s hd hs
    refine ⟨⟨s.voidGameCount, d, mg, runs.flatMap scores⟩, rfl, ?_, start_tuner h hd hs⟩
    have hk := start_kept _ hs (Nat.le_refl 1)
    have hfl : (Mp.start s 1 : Mp CState Job Res (RExc TExc)).inFlight = [] := by
      obtain ⟨h1, _⟩ := hk.inv.phase
      exact List.eq_nil_of_length_eq_zero h1.symm
    have := hk.fine trivial
    rw [hfl] at this
    exact this
  · intro t
    have hk := (keeps (tunerCompetition c) t.voids t.disk t.maxGames).toPreserves
    refine ⟨?_, ?_, ?_, ?_, ?_⟩
    · intro s fl fl' ⟨h1, h2⟩ hp
      exact ⟨hk.perm h1 hp, h2⟩
    · intro e s s' fl ⟨h1, h2⟩ hg
      have := hk.none h1 hg
      exact ⟨this, (getJob_tuner c t.base h1 h2 e hg (fun _ _ => this.order)).1 _ rfl⟩
    · intro e s s' fl j ⟨h1, h2⟩ hg
      have := hk.some h1 hg
      exact ⟨this, (getJob_tuner c t.base h1 h2 e hg (fun _ _ => this.order)).1 _ rfl⟩
    · intro e s s' fl j x u ⟨h1, h2⟩ hg
      exact ⟨hk.response h1 hg, (processResponse_tuner c t.base h1 h2 e hg).1 u rfl⟩
    · intro e s s' fl j u ⟨h1, h2⟩ hg
      exact ⟨hk.error h1 hg, (processError_tuner c t.base h1 h2 e hg).1 u rfl⟩
  · intro t e s s' fl x ⟨h1, h2⟩ hg
    exact (getJob_tuner c t.base h1 h2 e hg (fun _ hx => by cases hx)).2 x rfl
  · intro t e s s' fl j x y ⟨h1, h2⟩ hg
    exact (processResponse_tuner c t.base h1 h2 e hg).2 y rfl
  · intro t e s s' fl j y ⟨h1, h2⟩ hg
    exact (processError_tuner c t.base h1 h2 e hg).2 y rfl
  · intro runs t s fl ht ⟨h1, h2⟩
    rw [List.flatMap_cons, scores_upTo, ← ht]
    exact h2.saved
  · intro runs t x s ht ⟨_, h2⟩
    rw [List.flatMap_cons, scores_upTo, ← ht]
    exact h2

/-! ### The theorems -/

/-- Every game whose result has been reported, in this run (`acts`), or in an earlier one if it's in the status file: its name, and what it counted for the candidate. -/
def allScores (c : Config) (events : List (Event Res Env)) (acts : List CAct) : List (List Char × Rat) :=
  scores acts ++ (earlierRuns (tunerCompetition c) events).flatMap scores

/-- C90: after any history of runs, stops, failed games, exceptions and crashes, with any number of workers and any interleaving, a run in progress is one of the histories
of C65 and C66 (so what they say about a tuner holds of it): its results are those reported in this run, and those of earlier runs which got into the status
file; and the games which it waits for are those being played, and those to be played again. -/
theorem C90_refines {c : Config} (h : c.Ok) (events : List (Event Res Env)) {m : Mp CState Job Res (RExc TExc)} (hup : World.after (tunerCompetition c) events = .up m) (hf : m.phase.fine) :
    ∃ S r, Reached c.samples c.batch c.batch S (some c) ∧ S.run = some r ∧ r.config = c ∧ r.tuner = m.src.comp ∧ (r.stopping = true ↔ Stopped m.src.acts) ∧
      S.log = allScores c events m.src.acts ∧ (r.jobs.map Prod.fst).Perm (Ring.playing Job.gameId m.src.acts ++ Ring.waiting Job.gameId m.src.acts) ∧
      (Ring.playing Job.gameId m.src.acts).Perm m.inFlight := by
  have h0 := tuner_holds h events
  rw [hup] at h0
  obtain ⟨t, ht, hi, hfine, _⟩ := h0
  obtain ⟨h1, h2⟩ := hfine hf
  obtain ⟨S, r, s1, s2, s3, s4, s5, s6, s7, s8, s9⟩ := h2.sys
  refine ⟨S, r, s1, s2, s3, s4, s5, ?_, ?_, h1.playing.trans h1.flight.symm⟩
  · rw [s7, ht]; rfl
  · have := s6.map Prod.fst
    unfold pendingJobs at this
    rw [List.map_map] at this
    refine this.trans (List.Perm.of_eq ?_)
    exact List.map_id _

/-- C90: no game's result is ever counted twice, over all the runs; the games being played, or to be played again, are for candidates of the current generation, with the
opponent, and haven't been counted; and the candidates' wins are what they scored in the games of the current generation (when the event is finished, in the last one). -/
theorem C90_results {c : Config} (h : c.Ok) (events : List (Event Res Env)) {m : Mp CState Job Res (RExc TExc)} (hup : World.after (tunerCompetition c) events = .up m) (hf : m.phase.fine) :
    ((allScores c events m.src.acts).map Prod.fst).Nodup ∧
    ((Ring.playing Job.gameId m.src.acts ++ Ring.waiting Job.gameId m.src.acts).map Job.gameId).Nodup ∧
    (∀ j ∈ Ring.playing Job.gameId m.src.acts ++ Ring.waiting Job.gameId m.src.acts, j.gameId ∉ (allScores c events m.src.acts).map Prod.fst ∧
      (∃ i t, i < c.samples ∧ t < c.batch ∧ j.gameId = gameName m.src.comp.generation i t ∧ j.code = candidateName m.src.comp.generation i) ∧
      ((j.playerB = j.code ∧ j.playerW = c.opponent) ∨ (j.playerB = c.opponent ∧ j.playerW = j.code))) ∧
    m.src.comp.generation ≤ c.generations ∧
    (∀ p ∈ allScores c events m.src.acts, ∃ g i t, p.1 = gameName g i t ∧ g ≤ m.src.comp.generation ∧ i < c.samples ∧ t < c.batch) ∧
    (∀ g < m.src.comp.generation, ∀ i < c.samples, ∀ t < c.batch, gameName g i t ∈ (allScores c events m.src.acts).map Prod.fst) ∧
    (m.src.comp.generation < c.generations → ∀ i < c.samples, m.src.comp.wins[i]? = some (points (allScores c events m.src.acts) m.src.comp.generation i)) ∧
    (m.src.comp.generation = c.generations → Ring.playing Job.gameId m.src.acts = [] ∧ Ring.waiting Job.gameId m.src.acts = [] ∧
      ∀ i < c.samples, m.src.comp.wins[i]? = some (points (allScores c events m.src.acts) (c.generations - 1) i)) := by
  obtain ⟨S, r, s1, s2, s3, s4, s5, s6, s7, s8⟩ := C90_refines h events hup hf
  obtain ⟨n1, n2, n3, n4, n5⟩ := C66_names s1 s2
  obtain ⟨w1, w2, w3, w4⟩ := C66_wins s1 s2
  have hdone := C66_completed s1 s2
  have hfin := (C66_finish s1 s2).1
  rw [s6] at n1 n3 n5 w3 w4 hdone
  rw [s4, s3] at n4 n5 w2 w3 w4 hfin
  rw [s4] at w1 hdone
  have hmem : ∀ j ∈ Ring.playing Job.gameId m.src.acts ++ Ring.waiting Job.gameId m.src.acts, ∃ p ∈ r.jobs, p.1 = j := by
    intro j hj
    obtain ⟨p, hp, he⟩ := List.mem_map.1 (s7.mem_iff.2 hj)
    exact ⟨p, hp, he⟩
  refine ⟨n1, ?_, ?_, w2, ?_, ?_, w3, fun hg => ?_⟩
  · have := s7.map Job.gameId
    rw [List.map_map] at this
    exact this.nodup_iff.1 n2
  · intro j hj
    obtain ⟨p, hp, rfl⟩ := hmem j hj
    obtain ⟨i, t, a1, a2, a3, a4, a5⟩ := n4 p hp
    exact ⟨n3 p hp, ⟨i, t, a1, a2, a3, a4⟩, a5⟩
  · intro p hp
    obtain ⟨g, i, t, a1, a2, a3, a4⟩ := n5 p hp
    refine ⟨g, i, t, a1, a2, a3, ?_⟩
    rcases Nat.lt_or_ge g m.src.comp.generation with hg | hg
    · obtain ⟨k, k1, k2, k3⟩ := hdone g hg
      have := (k3 i a3 t).1 (List.mem_map.2 ⟨p, hp, a1⟩)
      omega
    · exact a4 (by omega)
  · intro g hg i hi t ht
    obtain ⟨k, k1, k2, k3⟩ := hdone g hg
    exact (k3 i hi t).2 (by omega)
  · obtain ⟨j1, _⟩ := hfin hg
    rw [j1] at s7
    have := s7.symm.eq_nil
    rw [List.append_eq_nil_iff] at this
    exact ⟨this.1, this.2, w4 hg⟩

/-- C90: when nothing is running, the status file has the wins of the candidates of the current generation, in the games whose results got into it, none of which is counted
twice; if there's no status file, no result ever did. -/
theorem C90_status_file {c : Config} (h : c.Ok) (events : List (Event Res Env)) {d : Option (Nat × Saved)} (hdown : World.after (tunerCompetition c) events = .down d) :
    (d = none → allScores c events [] = []) ∧
    ∀ v sv, d = some (v, sv) → ((allScores c events []).map Prod.fst).Nodup ∧ sv.generation ≤ c.generations ∧
      (sv.generation < c.generations → ∀ i < c.samples, sv.wins[i]? = some (points (allScores c events []) sv.generation i)) ∧
      (sv.generation = c.generations → ∀ i < c.samples, sv.wins[i]? = some (points (allScores c events []) (c.generations - 1) i)) := by
  have h0 := tuner_holds h events
  rw [hdown] at h0
  obtain ⟨S, o, r1, r2, r3, r4⟩ := h0
  have hall : allScores c events [] = S.savedLog := by rw [r4]; rfl
  rw [hall]
  refine ⟨fun hd => (reached_inv r1).clean (by rw [r3, hd]; rfl), fun v sv hd => ?_⟩
  have hsv : S.saved = some sv := by rw [r3, hd]; rfl
  obtain ⟨c', l, cur, ho, hl, hi, hlt⟩ := (reached_inv r1).saved sv hsv
  have hcc : c' = c := by
    rcases r2 with r2 | r2 <;> rw [r2] at ho
    · cases ho
    · exact (Option.some.inj ho).symm
  subst hcc
  rw [hl]
  refine ⟨nodup_entries hi.core.nodup_rounds, ?_, ?_, ?_⟩
  · rcases hi.phase with ⟨a, _⟩ | ⟨a, _⟩ <;> omega
  · intro hg i hin
    have : cur = sv.generation := by rcases hi.phase with ⟨a, _⟩ | ⟨a, _⟩ <;> omega
    rw [points_eq, ← this]
    exact hi.core.wins i hin
  · intro hg i hin
    have : c'.generations - 1 = cur := by rcases hi.phase with ⟨a, _⟩ | ⟨a, _⟩ <;> omega
    rw [points_eq, this]
    exact hi.core.wins i hin

/-- C90: a run never ends because of an internal error: the only exceptions are CompetitionError (from the user's functions), and failing to write the status file. -/
theorem C90_no_internal_error {c : Config} (h : c.Ok) (events : List (Event Res Env)) {m : Mp CState Job Res (RExc TExc)} (hup : World.after (tunerCompetition c) events = .up m)
    {x : RExc TExc} (hx : m.phase.exc = some x) : x = .comp .competitionError ∨ x = .statusWrite := by
  have h0 := tuner_holds h events
  rw [hup] at h0
  obtain ⟨t, ht, hi, _, hexc⟩ := h0
  have := (hexc x hx).1
  rcases x with _ | _ | _ | (_ | _)
  · exact absurd this id
  · exact absurd this id
  · exact Or.inr rfl
  · exact absurd this id
  · exact Or.inl rfl

/-- C90: a run can always be started, from whatever status file earlier runs have left, unless the user's functions fail. -/
theorem C90_can_start {c : Config} (h : c.Ok) (events : List (Event Res Env)) {d : Option (Nat × Saved)} (hdown : World.after (tunerCompetition c) events = .down d)
    (mg : Option Int) (e : Ring.Env Env) (he : ∀ p, e.call.makeOk p = true) (hr : e.report.describeOk = true) :
    (RM.start (tunerCompetition c) mg e d).isSome := by
  have h0 := tuner_holds h events
  rw [hdown] at h0
  obtain ⟨S, o, r1, r2, r3, r4⟩ := h0
  have hprep : ∀ g l, ∃ cs, prepareCandidates e.call g l = .ok cs := by
    intro g l
    unfold prepareCandidates
    rw [if_pos (List.all_eq_true.2 (fun p _ => he p))]
    exact ⟨_, rfl⟩
  refine start_isSome _ mg e d (fun _ => ?_) (fun v sv hd => ?_) (fun t => ⟨(), t, by simp only [tunerCompetition, hr, if_true]⟩)
  · obtain ⟨cs, hcs⟩ := hprep 0 ((List.range c.samples).map (getSample e.call c.initial))
    simp only [tunerCompetition, Tuner.clean, Tuner.reset, hcs]
    exact ⟨_, rfl⟩
  · have hsv : S.saved = some sv := by rw [r3, hd]; rfl
    obtain ⟨c', l, cur, ho, hl, hi, hlt⟩ := (reached_inv r1).saved sv hsv
    obtain ⟨cs, hcs⟩ := hprep sv.generation sv.sampleParameters
    simp only [tunerCompetition, Tuner.load, makeDistribution_ok hi.params.ne hi.params.var, hcs]
    exact ⟨_, rfl⟩

/-- C90: when a run ends by itself the tuning event is complete: every candidate of every generation has played its games, each counted exactly once over all the runs, and
nothing else has been counted. -/
theorem C90_complete {c : Config} (h : c.Ok) (events : List (Event Res Env)) {m : Mp CState Job Res (RExc TExc)} (hup : World.after (tunerCompetition c) events = .up m)
    (hf : m.phase = .returned none) (hstop : ¬ Stopped m.src.acts) :
    m.src.comp.generation = c.generations ∧ ((allScores c events m.src.acts).map Prod.fst).Nodup ∧
    ∀ name, name ∈ (allScores c events m.src.acts).map Prod.fst ↔ ∃ g i t, g < c.generations ∧ i < c.samples ∧ t < c.batch ∧ name = gameName g i t := by
  have hfine : m.phase.fine := by rw [hf]; rfl
  have h0 := tuner_holds h events
  rw [hup] at h0
  obtain ⟨t, ht, hi, hfi, _⟩ := h0
  obtain ⟨h1, h2⟩ := hfi hfine
  obtain ⟨S, r, s1, s2, s3, s4, s5, s6, s7, s8⟩ := C90_refines h events hup hfine
  obtain ⟨before, mg, e, w, steps, s, g1, g2, g3, _, rfl⟩ := C88_history _ events m hup
  obtain ⟨g5, g4⟩ := C88_end _ g1 g2 steps hf
  obtain ⟨g6, g7⟩ := g4 hstop
  have hlast := h2.last g6
  have hrs : r.stopping = false := by
    rw [Bool.eq_false_iff]; exact fun hx => hstop (s5.1 hx)
  have hjobs : r.jobs = [] := by
    have hp : Ring.playing Job.gameId ((Mp.start s w : Mp CState Job Res (RExc TExc)).run (source (tunerCompetition c)) steps).src.acts = [] := g5
    have hw : Ring.waiting Job.gameId ((Mp.start s w : Mp CState Job Res (RExc TExc)).run (source (tunerCompetition c)) steps).src.acts = [] := g7
    rw [hp, hw] at s7
    exact List.map_eq_nil_iff.1 s7.eq_nil
  obtain ⟨n1, n2, n3, n4, n5, n6, n7, n8⟩ := C90_results h events hup hfine
  have hgen : ((Mp.start s w : Mp CState Job Res (RExc TExc)).run (source (tunerCompetition c)) steps).src.comp.generation = c.generations := by
    by_contra hne
    obtain ⟨j, hj, _⟩ := (C66_finish s1 s2).2 (by rw [s4, s3]; omega) hjobs hrs ⟨fun _ _ => 0, fun _ => true, true, .b⟩ rfl
    rw [s4, s3] at hj
    unfold Tuner.getGame at hj
    rcases hiss : ((Mp.start s w : Mp CState Job Res (RExc TExc)).run (source (tunerCompetition c)) steps).src.comp.scheduler.issue with ⟨_ | p, g⟩
    · rw [hiss] at hj
      simp only [Except.ok.injEq, reduceCtorEq] at hj
    · rw [hiss] at hlast; cases hlast
  refine ⟨hgen, n1, fun name => ⟨fun hm => ?_, ?_⟩⟩
  · obtain ⟨p, hp, rfl⟩ := List.mem_map.1 hm
    obtain ⟨g, i, k, a1, a2, a3, a4⟩ := n5 p hp
    refine ⟨g, i, k, ?_, a3, a4, a1⟩
    rcases Nat.lt_or_ge g c.generations with hg | hg
    · exact hg
    · exfalso
      have hge : g = c.generations := by omega
      obtain ⟨_, l, cur, hl, hi2, hlt⟩ := (reached_inv s1).run r s2
      rw [← s6, hl] at hp
      obtain ⟨x, hx, hxe⟩ := List.mem_map.1 hp
      have hr := (hi2.core.range x hx).1
      have : gameName x.gen x.cand x.round = gameName g i k := by rw [← a1, ← hxe]; rfl
      have := (gameName_inj this).1
      rw [s3] at hlt
      omega
  · rintro ⟨g, i, k, a1, a2, a3, rfl⟩
    exact n6 g (by omega) i a2 k a3

/-- C90: the games given out in a run all have different ids. -/
theorem C90_ids {c : Config} (h : c.Ok) (events : List (Event Res Env)) {m : Mp CState Job Res (RExc TExc)} (hup : World.after (tunerCompetition c) events = .up m) (hf : m.phase.fine) :
    ((offers m.src.acts).map Job.gameId).Nodup := by
  have h0 := tuner_holds h events
  rw [hup] at h0
  obtain ⟨t, ht, hi, hfi, _⟩ := h0
  exact (hfi hf).2.ids

theorem failures_suffix : ∀ {l1 l2 : List CAct}, FailuresHandled (l1 ++ l2) → FailuresHandled l2
  | [], _, h => h
  | a :: l1, l2, h => failures_suffix (l1 := l1) (by cases a <;> first | exact h | exact h.2.2)

/-- C90: a game which fails is played again if it hasn't failed before, and some game has been successful in this run; otherwise the competition is stopped. -/
theorem C90_failures {c : Config} (h : c.Ok) (events : List (Event Res Env)) {m : Mp CState Job Res (RExc TExc)} (hup : World.after (tunerCompetition c) events = .up m) (hf : m.phase.fine)
    {later earlier : List CAct} {j : Job} {n : Nat} {stop retry : Bool} {t : Tuner} (hacts : m.src.acts = later ++ .failed j n stop retry t :: earlier) :
    (stop = true ↔ scores earlier = [] ∨ 0 < timesFailed Job.gameId j.gameId earlier) ∧ retry = !stop := by
  have h0 := tuner_holds h events
  rw [hup] at h0
  obtain ⟨t', ht, hi, hfi, _⟩ := h0
  have hfails := (hfi hf).2.fails
  rw [hacts] at hfails
  obtain ⟨a1, a2, _⟩ := failures_suffix hfails
  have hids := C90_ids h events hup hf
  obtain ⟨before, mg, e, w, steps, s, g1, g2, g3, _, rfl⟩ := C88_history _ events m hup
  have hn := C88_error_count _ g1 g2 steps hacts (by
    rw [hacts, offers_append, List.map_append, List.nodup_append] at hids
    exact hids.2.1)
  rw [hn] at a1
  exact ⟨a1, a2⟩

/-! ### An example -/

open Example in
def ringEnv : Ring.Env Env := ⟨false, 0, true, true, env, env⟩

open Example in
/-- Two candidates, one game each, two generations.  A run with two workers: the second candidate wins; the first's game fails, is played again, and is a jigo; then games of the second
generation are started, and the program crashes.  A second run plays those. -/
def ringEvents : List (Event Res Env) :=
  [.start none ringEnv 2, .step (.mgr ringEnv), .step (.mgr ringEnv), .step (.take 0), .step (.take 1), .step (.mgr ringEnv), .step (.finishJob 1 (some blackWin)), .step (.mgr ringEnv), .step (.mgr ringEnv),
   .step (.finishJob 0 none), .step (.mgr ringEnv), .step (.mgr ringEnv), .step (.take 0), .step (.mgr ringEnv), .step (.finishJob 0 (some jigo)), .step (.mgr ringEnv), .step (.mgr ringEnv), .step (.mgr ringEnv),
   .step (.take 0), .step (.mgr ringEnv), .down,
   .start none ringEnv 1, .step (.mgr ringEnv), .step (.mgr ringEnv), .step (.take 0), .step (.finishJob 0 (some jigo)), .step (.mgr ringEnv), .step (.mgr ringEnv), .step (.mgr ringEnv), .step (.take 0),
   .step (.finishJob 0 (some blackWin)), .step (.mgr ringEnv), .step (.mgr ringEnv), .step (.mgr ringEnv), .step (.take 0), .step (.mgr ringEnv)]

def ringKind : CAct → Nat × String
  | .offered j => (0, String.ofList j.gameId)
  | .result j _ _ => (1, String.ofList j.gameId)
  | .failed j _ _ _ _ => (2, String.ofList j.gameId)
  | .again j => (3, String.ofList j.gameId)
  | .noGame => (4, "")
  | _ => (5, "")

/-- The record of the runs which are over, whether the latest has returned by itself, its record, the generation, and the scores. -/
def ringSummary (c : Config) (events : List (Event Res Env)) : List (List (Nat × String)) × Option (Bool × List (Nat × String) × Nat × List (String × Rat)) :=
  ((earlierRuns (tunerCompetition c) events).map (·.map ringKind),
   match World.after (tunerCompetition c) events with
   | .down _ => none
   | .up m => some (m.phase == .returned none, m.src.acts.map ringKind, m.src.comp.generation, (allScores c events m.src.acts).map (fun p => (String.ofList p.1, p.2))))

set_option synthInstance.maxHeartbeats 400000 in
set_option synthInstance.maxSize 1000 in
open Example in
/-- C90: the two runs of `ringEvents`. -/
theorem C90_witness : (config 1 2).Ok ∧ (ringSummary (config 1 2) ringEvents).1 =
    [[(1, "g0#0r0"), (4, ""), (3, "g0#0r0"), (2, "g0#0r0"), (4, ""), (1, "g0#1r0"), (0, "g0#1r0"), (0, "g0#0r0")]] ∧
    (ringSummary (config 1 2) ringEvents).2 =
     some (true, [(4, ""), (1, "g1#1r0"), (0, "g1#1r0"), (1, "g1#0r0"), (0, "g1#0r0")], 2,
       [("g1#1r0", 1), ("g1#0r0", 1 / 2), ("g0#0r0", 1 / 2), ("g0#1r0", 1)]) :=
  ⟨config_ok 1 2 (by decide) (by decide), by decide +kernel, by decide +kernel⟩

end Gomill.Cem
