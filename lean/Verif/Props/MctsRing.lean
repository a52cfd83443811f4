import Verif.Model.MctsRing
import Verif.Spec.MctsRing
import Verif.Spec.RingStory
import Verif.Lemmas.RingEffect
import Verif.Lemmas.Cem
import Verif.Props.MctsTuner
/-
C89: the MCTS tuner run by the ringmaster.
-/
namespace Gomill.Mcts
open Py Sched MctsSpec Gomill.Ring Jobs
open MctsSpec (Ev)
variable {α : Type} [DecidableEq α]

/-! ### One call -/

theorem issue_fresh {sch : Simple} {l} (h : Inv sch l) : sch.issue.1 ∉ sch.outstanding := by
  unfold Simple.issue
  cases hm : sch.toReissue.min? with
  | some r =>
    simp only
    intro hc
    exact h.disOR _ hc (List.min?_mem hm)
  | none =>
    simp only
    intro hc
    have := (h.cover _).2 (.inl hc)
    omega

theorem mem_issue {sch : Simple} {n : Nat} (h : n ∈ sch.issue.2.outstanding) : n = sch.issue.1 ∨ n ∈ sch.outstanding := by
  unfold Simple.issue at *
  cases hm : sch.toReissue.min? <;> rw [hm] at h <;> simp only [mem_setAdd] at h <;> simp only <;> tauto

theorem Sys.run_append (c : Config) (limit : Option Int) (scaled0 : α) (ops : List TOp) (op : TOp) :
    Sys.run c limit scaled0 (ops ++ [op]) = (Sys.run c limit scaled0 ops).step c limit scaled0 op := by
  unfold Sys.run; rw [List.foldl_append]; rfl

/-- What `get_game` does in a reachable state. -/
theorem getGame_cases {c : Config} (h : c.Ok) (limit : Option Int) (scaled0 : α) (ops : List TOp) (starts : Nat → Nat) (makeOk : List Rat → Bool)
    {r : Except TExc (Option (Nat × List Rat))} {t' : Tuner} (hg : (Sys.run c limit scaled0 ops).tuner.getGame c limit starts makeOk = (r, t')) :
    (r = .ok none ∧ t' = (Sys.run c limit scaled0 ops).tuner ∧ ∃ k, limit = some k ∧ k ≤ (Sys.run c limit scaled0 ops).tuner.scheduler.issued) ∨
    r = .error .competitionError ∨
    (∃ n ps path, r = .ok (some (n, ps)) ∧ parametersForPath c.splits path = .ok ps ∧ n = (Sys.run c limit scaled0 ops).tuner.scheduler.issue.1 ∧
      t'.scheduler = (Sys.run c limit scaled0 ops).tuner.scheduler.issue.2 ∧
      (Sys.run c limit scaled0 (ops ++ [.getGame starts makeOk])) =
        { Sys.run c limit scaled0 ops with tuner := t', log := .issued n path :: (Sys.run c limit scaled0 ops).log }) := by
  have hi := run_inv h limit scaled0 ops
  rw [Sys.run_append]
  generalize Sys.run c limit scaled0 ops = s at *
  have hr := run_spec h.bf starts hi.tree.uniform
  have hexp : (c.run starts s.tuner.root).1 ≠ [] := by
    rcases hr.expanded with he | he
    · exact he
    · rw [hi.tree.expanded] at he; cases he
  obtain ⟨w, v, hleaf⟩ := hr.leaf
  have hlt : ∀ i ∈ (c.run starts s.tuner.root).1, i < product c.splits := by
    rw [← branchingFactor_eq]; exact get_lt hr.uniform (by rw [hleaf]; rfl)
  obtain ⟨ps, hps, _⟩ := C42_centre h.splits hlt
  have hplay : ∀ {r t'}, Tuner.getGame.play c starts makeOk s.tuner = (r, t') → r = .error .competitionError ∨
      (r = .ok (some (s.tuner.scheduler.issue.1, ps)) ∧ t'.scheduler = s.tuner.scheduler.issue.2) := by
    intro r t' hx
    unfold Tuner.getGame.play at hx
    simp only [hps] at hx
    split at hx
    · simp only [Prod.mk.injEq] at hx
      obtain ⟨rfl, rfl⟩ := hx
      exact Or.inr ⟨rfl, rfl⟩
    · simp only [Prod.mk.injEq] at hx
      exact Or.inl hx.1.symm
  have hfin : ∀ {r t'}, s.tuner.getGame c limit starts makeOk = (r, t') → Tuner.getGame.play c starts makeOk s.tuner = (r, t') → 
      r = .error .competitionError ∨ (∃ n ps path, r = .ok (some (n, ps)) ∧ parametersForPath c.splits path = .ok ps ∧ n = s.tuner.scheduler.issue.1 ∧
        t'.scheduler = s.tuner.scheduler.issue.2 ∧
        s.step c limit scaled0 (.getGame starts makeOk) = { s with tuner := t', log := .issued n path :: s.log }) := by
    intro r t' h1 h2
    rcases hplay h2 with h3 | ⟨h3, h4⟩
    · exact Or.inl h3
    · refine Or.inr ⟨_, ps, (c.run starts s.tuner.root).1, h3, hps, rfl, h4, ?_⟩
      rw [h3] at h1
      simp only [Sys.step, h1]
  have hg0 := hg
  unfold Tuner.getGame at hg
  cases hl : limit with
  | none =>
    subst hl
    exact Or.inr (hfin hg0 hg)
  | some k =>
    subst hl
    simp only at hg
    by_cases hk : s.tuner.scheduler.issued ≥ k
    · rw [if_pos hk] at hg
      simp only [Prod.mk.injEq] at hg
      exact Or.inl ⟨hg.1.symm, hg.2.symm, k, rfl, hk⟩
    · rw [if_neg hk] at hg
      exact Or.inr (hfin hg0 hg)

/-! ### The invariant -/

/-- The status file is what the system has saved. -/
def SavedAs (c : Config) (scaled0 : α) (S : Sys α) (d : Option (Nat × Saved α)) : Prop :=
  (d = none → S.saved = (Tuner.clean c).save scaled0 ∧ S.savedLog = []) ∧ ∀ v sv, d = some (v, sv) → sv = S.saved

/-- What this run has put in the status file, after what was in it before. -/
def Linked (splits : List Nat) (acts : List (Act Tuner Game Bool TExc)) (saved0 savedLog : List Ev) : Prop :=
  (upToReport acts = [] ∧ savedLog = saved0) ∨
  (upToReport acts ≠ [] ∧ ∃ evs, Matches splits (upToReport acts) evs ∧ savedLog = evs ++ .restarted :: saved0)

theorem Linked.cons {splits : List Nat} {acts : List (Act Tuner Game Bool TExc)} {saved0 savedLog : List Ev} (h : Linked splits acts saved0 savedLog)
    {a : Act Tuner Game Bool TExc} (ha : isReport a = false) : Linked splits (a :: acts) saved0 savedLog := by
  have : upToReport (a :: acts) = upToReport acts := by unfold upToReport; rw [List.dropWhile_cons]; simp [ha]
  unfold Linked; rw [this]; exact h

structure TInv (c : Config) (limit : Option Int) (scaled0 : α) (saved0 : List Ev) (s : RM Tuner Game Bool (Saved α) TExc) (fl : List Game) : Prop where
  replay : s.toReplay = []
  out : ∀ n ∈ s.comp.scheduler.outstanding, n ∈ fl.map Prod.fst
  nodup : (fl.map Prod.fst).Nodup
  sys : ∃ ops evs, (Sys.run c limit scaled0 ops).tuner = s.comp ∧ (Sys.run c limit scaled0 ops).log = evs ++ .restarted :: saved0 ∧
    Linked c.splits s.acts saved0 (Sys.run c limit scaled0 ops).savedLog ∧ Matches c.splits s.acts evs ∧ SavedAs c scaled0 (Sys.run c limit scaled0 ops) s.disk ∧
    ∀ j ∈ fl, ∃ path, running j.1 (Sys.run c limit scaled0 ops).log = some path ∧ parametersForPath c.splits path = .ok j.2
  last : s.acts.head? = some .noGame → ∃ k, limit = some k ∧ k ≤ s.comp.scheduler.issued

/-- The exceptions which can end a run: a CompetitionError, or a failure to write the status file. -/
def Expected : RExc TExc → Prop
  | .comp .competitionError => True
  | .statusWrite => True
  | _ => False

/-- After an exception. -/
def TBad (c : Config) (limit : Option Int) (scaled0 : α) (saved0 : List Ev) (x : RExc TExc) (s : RM Tuner Game Bool (Saved α) TExc) : Prop :=
  Expected x ∧ ∃ ops, SavedAs c scaled0 (Sys.run c limit scaled0 ops) s.disk ∧
    Linked c.splits (withoutUnwritten (some x) s.acts) saved0 (Sys.run c limit scaled0 ops).savedLog

theorem getJob_tuner {c : Config} (h : c.Ok) (limit : Option Int) (scaled0 : α) (saved0 : List Ev) {v0 : Nat} {d0 : Option (Nat × Saved α)} {mg : Option Int}
    {s s' : RM Tuner Game Bool (Saved α) TExc} {fl : List Game} (hr : RInv (tunerCompetition c limit scaled0) v0 d0 mg s fl) (ht : TInv c limit scaled0 saved0 s fl)
    (e : Env MEnv) {r : Except (RExc TExc) (Option Game)} (hg : RM.getJob (tunerCompetition c limit scaled0) e s = (r, s')) :
    (r = .ok none → TInv c limit scaled0 saved0 s' fl) ∧ (∀ j, r = .ok (some j) → TInv c limit scaled0 saved0 s' (j :: fl)) ∧
    ∀ x, r = .error x → TBad c limit scaled0 saved0 x s' := by
  obtain ⟨ops0, _, _, _, hlink0, _, hsaved0, _⟩ := ht.sys
  have main : ∀ {r : Except (RExc TExc) (Option Game)} {s1 : RM Tuner Game Bool (Saved α) TExc}, s.getJob1 (tunerCompetition c limit scaled0) e = (r, s1) →
      s1.disk = s.disk ∧ (r = .ok none → TInv c limit scaled0 saved0 s1 fl) ∧ (∀ j, r = .ok (some j) → TInv c limit scaled0 saved0 s1 (j :: fl)) ∧
      (∀ x, r = .error x → TBad c limit scaled0 saved0 x s1) ∧ (∀ o, r = .ok o → Linked c.splits s1.acts saved0 (Sys.run c limit scaled0 ops0).savedLog) := by
    intro r s1 hj
    obtain ⟨hd, hcase⟩ := getJob1_effect _ e s hj
    refine ⟨hd, ?_⟩
    obtain ⟨ops, evs, h1, h2, h3, h4, h5, h6⟩ := ht.sys
    rcases hcase with ⟨e1, e2, e3, e4⟩ | ⟨j, hj, _⟩ | ⟨_, _, e2, e3, e4⟩
    · refine ⟨fun _ => ?_, (fun j hx => by rw [e1] at hx; simp at hx), (fun x hx => by rw [e1] at hx; cases hx), fun o _ => ?_⟩
      · refine ⟨by rw [e3, ht.replay], by rw [e2]; exact ht.out, ht.nodup, ⟨ops, evs, by rw [e2, h1], h2, ?_, ?_, by rw [hd]; exact h5, h6⟩, ?_⟩
        · rcases e4 with e4 | e4 <;> rw [e4]
          · exact h3
          · exact h3.cons rfl
        · rcases e4 with e4 | e4 <;> rw [e4]
          · exact h4
          · exact .halted h4
        · rcases e4 with e4 | e4 <;> rw [e4, e2]
          · exact ht.last
          · intro hx; simp at hx
      · rcases e4 with e4 | e4 <;> rw [e4]
        · exact hlink0
        · exact hlink0.cons rfl
    · rw [ht.replay] at hj; cases hj
    · rcases hgg : (tunerCompetition c limit scaled0).getGame e.call s.comp with ⟨g, t'⟩
      rw [hgg] at e3 e4
      simp only at e3 e4
      have hgg' : (Sys.run c limit scaled0 ops).tuner.getGame c limit e.call.starts e.call.makeOk = (g, t') := by rw [h1]; exact hgg
      rcases getGame_cases h limit scaled0 ops _ _ hgg' with ⟨rfl, rfl, k, hk, hki⟩ | rfl | ⟨n, ps, path, rfl, hps, hn, hsch, hsys⟩
      · obtain ⟨e5, e6⟩ := e4
        refine ⟨fun _ => ?_, (fun j hx => by rw [e5] at hx; simp at hx), (fun x hx => by rw [e5] at hx; cases hx), fun o _ => by rw [e6]; exact hlink0.cons rfl⟩
        rw [h1] at e3
        refine ⟨e2, by rw [e3]; exact ht.out, ht.nodup, ⟨ops, evs, by rw [e3, h1], h2, by rw [e6]; exact h3.cons rfl, by rw [e6]; exact .noGame h4, by rw [hd]; exact h5, h6⟩, ?_⟩
        intro _
        rw [e3, ← h1]; exact ⟨k, hk, hki⟩
      · obtain ⟨e5, e6⟩ := e4
        refine ⟨(fun hx => by rw [e5] at hx; cases hx), (fun j hx => by rw [e5] at hx; cases hx), fun x hx => ?_, (fun o hx => by rw [e5] at hx; cases hx)⟩
        rw [e5] at hx; cases hx
        exact ⟨trivial, ops, by rw [hd]; exact h5, by rw [e6]; exact h3.cons rfl⟩
      · have hi := run_inv h limit scaled0 ops
        obtain ⟨l, hl, _⟩ := hi.tree.sched
        have hfresh : ∀ j ∈ fl, j.1 ≠ n := by
          intro j hj he
          obtain ⟨p, hp, _⟩ := h6 j hj
          have := (hi.tree.current _ _ hp).2.2
          rw [he, hn] at this
          exact issue_fresh hl this
        rcases e4 with ⟨e5, e6⟩ | ⟨e5, e6⟩
        · exfalso
          obtain ⟨j, hj, he⟩ := List.mem_map.1 e5
          exact hfresh j (hr.flight.mem_iff.2 hj) (Cem.toDigits_inj he)
        · refine ⟨(fun hx => by rw [e5] at hx; simp at hx), fun j hx => ?_, (fun x hx => by rw [e5] at hx; cases hx), fun o _ => by rw [e6]; exact hlink0.cons rfl⟩
          rw [e5] at hx
          simp only [Except.ok.injEq, Option.some.injEq] at hx
          subst hx
          refine ⟨e2, ?_, ?_, ⟨ops ++ [.getGame e.call.starts e.call.makeOk], .issued n path :: evs, by rw [hsys, e3], by rw [hsys, h2]; rfl, ?_, ?_, ?_, ?_⟩, ?_⟩
          · rw [e3, hsch]
            intro m hm
            rcases mem_issue hm with hm | hm
            · rw [hm, ← hn]; exact List.mem_cons_self ..
            · rw [h1] at hm; exact List.mem_cons_of_mem _ (ht.out m hm)
          · rw [List.map_cons, List.nodup_cons]
            refine ⟨fun hc => ?_, ht.nodup⟩
            obtain ⟨j, hj, he⟩ := List.mem_map.1 hc
            exact hfresh j hj he
          · rw [e6, hsys]; exact h3.cons rfl
          · rw [e6]; exact .offered h4 hps
          · rw [hsys, hd]; exact h5
          · intro j hj
            rw [hsys]
            simp only [running]
            rcases List.mem_cons.1 hj with rfl | hj
            · rw [if_pos rfl]; exact ⟨path, rfl, hps⟩
            · rw [if_neg (hfresh j hj).symm]; exact h6 j hj
          · rw [e6]; intro hx; simp at hx
  unfold RM.getJob at hg
  rcases hj : s.getJob1 (tunerCompetition c limit scaled0) e with ⟨r1, s1⟩
  obtain ⟨hd, m1, m2, m3, m4⟩ := main hj
  rw [hj] at hg
  rcases r1 with x | o <;> simp only at hg
  · simp only [Prod.mk.injEq] at hg
    obtain ⟨rfl, rfl⟩ := hg
    exact ⟨(fun hx => by cases hx), (fun j hx => by cases hx), m3⟩
  · rcases hu : s1.updateDisplay (tunerCompetition c limit scaled0) e.display e.report with ⟨y | u, s2⟩ <;> rw [hu] at hg <;> simp only at hg
    · simp only [Prod.mk.injEq] at hg
      obtain ⟨rfl, rfl⟩ := hg
      have hx : y = .comp .competitionError ∧ s2.disk = s1.disk ∧ s2.acts = .raised .competitionError :: s1.acts := by
        unfold RM.updateDisplay at hu
        split at hu
        · simp only [tunerCompetition] at hu
          split at hu
          · simp only [Prod.mk.injEq, reduceCtorEq, false_and] at hu
          · rename_i x c' hx
            simp only [Prod.mk.injEq] at hu
            obtain ⟨hu1, hu2⟩ := hu
            injection hu1 with hu1
            simp only [Prod.mk.injEq] at hx
            have hx1 : x = .competitionError := by
              split at hx
              · exact absurd hx.1 (by simp)
              · have := hx.1; injection this with this; exact this.symm
            rw [← hu1, ← hu2, hx1]; exact ⟨rfl, rfl, rfl⟩
        · simp only [Prod.mk.injEq, reduceCtorEq, false_and] at hu
      refine ⟨(fun hx => by cases hx), (fun j hx => by cases hx), fun x h1 => ?_⟩
      injection h1 with h1
      rw [← h1, hx.1]
      exact ⟨trivial, ops0, by rw [hx.2.1, hd]; exact hsaved0, by rw [hx.2.2]; exact (m4 o rfl).cons rfl⟩
    · simp only [Prod.mk.injEq] at hg
      obtain ⟨rfl, rfl⟩ := hg
      have hs2 : s2 = s1 := by
        unfold RM.updateDisplay at hu
        split at hu
        · simp only [tunerCompetition] at hu
          split at hu
          · rename_i x c' hx
            simp only [Prod.mk.injEq] at hu hx
            rw [← hu.2, ← hx.2]
          · simp only [Prod.mk.injEq, reduceCtorEq, false_and] at hu
        · simp only [Prod.mk.injEq] at hu; exact hu.2.symm
      subst hs2
      exact ⟨m1, m2, (fun x hx => by cases hx)⟩

/-- What a report does to the system: `op` is the report, `ev` its event. -/
theorem report_sys {c : Config} (h : c.Ok) (limit : Option Int) (scaled0 : α) (ops : List TOp) {n : Nat}
    (hn : running n (Sys.run c limit scaled0 ops).log ≠ none) {op : TOp} {ev : Ev} {t : Tuner}
    (hop : ((∃ won, op = .result n won ∧ ev = .finished n won ∧ t = ((Sys.run c limit scaled0 ops).tuner.processResult n won).2) ∨
      (op = .error n ∧ ev = .failed n ∧ t = ((Sys.run c limit scaled0 ops).tuner.processError n).2))) :
    Sys.run c limit scaled0 (ops ++ [op]) = { Sys.run c limit scaled0 ops with tuner := t, log := ev :: (Sys.run c limit scaled0 ops).log } ∧
    t.scheduler.outstanding = (Sys.run c limit scaled0 ops).tuner.scheduler.outstanding.erase n ∧
    (∀ m, running m (ev :: (Sys.run c limit scaled0 ops).log) = if n = m then none else running m (Sys.run c limit scaled0 ops).log) := by
  have hi := run_inv h limit scaled0 ops
  obtain ⟨p, hp⟩ := Option.ne_none_iff_exists'.1 hn
  obtain ⟨_, _, hmem⟩ := hi.tree.current n p hp
  have hl : (Sys.run c limit scaled0 ops).tuner.outstanding.lookup n = some p := by rw [hi.out, hp]
  rw [Sys.run_append]
  generalize Sys.run c limit scaled0 ops = s at *
  rcases hop with ⟨won, rfl, rfl, rfl⟩ | ⟨rfl, rfl, rfl⟩
  · simp only [Sys.step]
    rw [if_neg hn]
    unfold Tuner.processResult
    simp only [fix_ok hmem, hl]
    exact ⟨trivial, trivial, fun m => rfl⟩
  · simp only [Sys.step]
    rw [if_neg hn]
    unfold Tuner.processError
    simp only [fix_ok hmem, hl]
    exact ⟨trivial, trivial, fun m => rfl⟩

/-- A report, when the competition's method returns. -/
theorem report_tuner {c : Config} (h : c.Ok) (limit : Option Int) (scaled0 : α) (saved0 : List Ev)
    {s s' : RM Tuner Game Bool (Saved α) TExc} {fl : List Game} {j : Game} (ht : TInv c limit scaled0 saved0 s (j :: fl)) {op : TOp} {ev : Ev} {a : Act Tuner Game Bool TExc}
    (hop : (∃ won, op = .result j.1 won ∧ ev = .finished j.1 won ∧ s'.comp = (s.comp.processResult j.1 won).2) ∨
      (op = .error j.1 ∧ ev = .failed j.1 ∧ s'.comp = (s.comp.processError j.1).2))
    (ha : isReport a = true) (hm : ∀ {evs}, Matches c.splits s.acts evs → Matches c.splits (a :: s.acts) (ev :: evs)) (hacts : s'.acts = a :: s.acts) (hreplay : s'.toReplay = s.toReplay) :
    (s'.disk = s.disk → TBad c limit scaled0 saved0 .statusWrite s') ∧
    (∀ v, s'.disk = some (v, s'.comp.save scaled0) → TInv c limit scaled0 saved0 s' fl) := by
  obtain ⟨ops, evs, h1, h2, h3, h4, h5, h6⟩ := ht.sys
  obtain ⟨path, hp, _⟩ := h6 j (List.mem_cons_self ..)
  obtain ⟨r1, r2, r3⟩ := report_sys h limit scaled0 ops (n := j.1) (by rw [hp]; simp) (op := op) (ev := ev) (t := s'.comp) (by rw [h1]; exact hop)
  have hi := run_inv h limit scaled0 ops
  obtain ⟨l, hl, _⟩ := hi.tree.sched
  refine ⟨fun hd => ⟨trivial, ops, by rw [hd]; exact h5, by rw [hacts]; exact h3⟩, fun v hd => ?_⟩
  have hsave : Sys.run c limit scaled0 (ops ++ [op] ++ [.save]) =
      ⟨s'.comp, ev :: (Sys.run c limit scaled0 ops).log, s'.comp.save scaled0, ev :: (Sys.run c limit scaled0 ops).log⟩ := by
    rw [Sys.run_append, r1]; rfl
  have hup : upToReport s'.acts = s'.acts := by
    rw [hacts]; unfold upToReport; rw [List.dropWhile_cons]; simp [ha]
  have hm' := hm h4
  rw [← hacts] at hm'
  have hn := List.nodup_cons.1 ht.nodup
  refine ⟨hreplay.trans ht.replay, ?_, hn.2, ⟨ops ++ [op] ++ [.save], ev :: evs, by rw [hsave], by rw [hsave, h2]; rfl, ?_, hm', ?_, ?_⟩, ?_⟩
  · rw [r2]
    intro m hmm
    have hmm' := (List.Nodup.mem_erase_iff hl.nodupO).1 hmm
    rw [h1] at hmm'
    rcases List.mem_cons.1 (ht.out m hmm'.2) with he | he
    · exact absurd he hmm'.1
    · exact he
  · rw [hsave]
    refine Or.inr ⟨by rw [hup, hacts]; simp, ev :: evs, by rw [hup]; exact hm', by simp only; rw [h2]; rfl⟩
  · rw [hsave, hd]
    refine ⟨(fun hx => by cases hx), fun v' sv hx => ?_⟩
    simp only [Option.some.injEq, Prod.mk.injEq] at hx
    exact hx.2.symm
  · intro j' hj'
    rw [hsave]
    simp only
    rw [r3, if_neg (fun (he : j.1 = j'.1) => hn.1 (he ▸ List.mem_map_of_mem hj'))]
    exact h6 j' (List.mem_cons_of_mem _ hj')
  · rw [hacts]
    intro hx
    have : a = .noGame := Option.some.inj hx
    rw [this] at ha; cases ha

theorem processResponse_tuner {c : Config} (h : c.Ok) (limit : Option Int) (scaled0 : α) (saved0 : List Ev) {v0 : Nat} {d0 : Option (Nat × Saved α)} {mg : Option Int}
    {s s' : RM Tuner Game Bool (Saved α) TExc} {fl : List Game} {j : Game} (hr : RInv (tunerCompetition c limit scaled0) v0 d0 mg s (j :: fl))
    (ht : TInv c limit scaled0 saved0 s (j :: fl)) (e : Env MEnv) {won : Bool} {r : Except (RExc TExc) Unit}
    (hg : RM.processResponse (tunerCompetition c limit scaled0) e j won s = (r, s')) :
    (∀ u, r = .ok u → TInv c limit scaled0 saved0 s' fl) ∧ ∀ x, r = .error x → TBad c limit scaled0 saved0 x s' := by
  have hn := hr.nodup
  rw [List.map_append, List.nodup_append] at hn
  obtain ⟨h1, h2, h3⟩ := processResponse_effect _ e s won hn.1 (hr.flight.mem_iff.1 (List.mem_cons_self ..)) hg
  obtain ⟨ops, evs, s1, s2, s3, s4, s5, s6⟩ := ht.sys
  obtain ⟨path, hp, _⟩ := s6 j (List.mem_cons_self ..)
  obtain ⟨ok, _⟩ := C43_no_errors h limit scaled0 ops (n := j.1) (by rw [hp]; simp) won
  rw [s1] at ok
  have hpr : (tunerCompetition c limit scaled0).processResult e.call j won s.comp =
      (if e.call.describeOk then .ok () else .error .competitionError, (s.comp.processResult j.1 won).2) := by
    simp only [tunerCompetition]
    rcases hx : s.comp.processResult j.1 won with ⟨y | u, t⟩
    · rw [hx] at ok; cases ok
    · rfl
  rw [hpr] at h1 h3
  simp only at h1 h3
  rcases h3 with ⟨y, e1, rfl, e3, e4⟩ | ⟨u, e1, e2, e3⟩
  · have hy : y = .competitionError := by
      split at e1
      · cases e1
      · injection e1 with e1; exact e1.symm
    subst hy
    refine ⟨(fun u hx => by cases hx), fun x hx => ?_⟩
    injection hx with hx
    subst hx
    exact ⟨trivial, ops, by rw [e3]; exact s5, by rw [e4]; exact s3.cons rfl⟩
  · obtain ⟨q1, q2⟩ := report_tuner h limit scaled0 saved0 (s' := s') ht (op := .result j.1 won) (ev := .finished j.1 won) (a := .result j won s'.comp)
      (Or.inl ⟨won, rfl, rfl, h1⟩) rfl (fun hm => .result j won _ hm) e2 h2
    rcases e3 with ⟨rfl, e3⟩ | ⟨rfl, e3⟩
    · refine ⟨(fun u hx => by cases hx), fun x hx => ?_⟩
      injection hx with hx
      subst hx
      exact q1 e3
    · exact ⟨fun _ _ => q2 _ e3, (fun x hx => by cases hx)⟩

theorem processError_tuner {c : Config} (h : c.Ok) (limit : Option Int) (scaled0 : α) (saved0 : List Ev) {v0 : Nat} {d0 : Option (Nat × Saved α)} {mg : Option Int}
    {s s' : RM Tuner Game Bool (Saved α) TExc} {fl : List Game} {j : Game} (hr : RInv (tunerCompetition c limit scaled0) v0 d0 mg s (j :: fl))
    (ht : TInv c limit scaled0 saved0 s (j :: fl)) (e : Env MEnv) {r : Except (RExc TExc) Unit}
    (hg : RM.processError (tunerCompetition c limit scaled0) e j s = (r, s')) :
    (∀ u, r = .ok u → TInv c limit scaled0 saved0 s' fl) ∧ ∀ x, r = .error x → TBad c limit scaled0 saved0 x s' := by
  have hn := hr.nodup
  rw [List.map_append, List.nodup_append] at hn
  obtain ⟨h1, h3⟩ := processError_effect _ e s hn.1 (hr.flight.mem_iff.1 (List.mem_cons_self ..)) hg
  obtain ⟨ops, evs, s1, s2, s3, s4, s5, s6⟩ := ht.sys
  obtain ⟨path, hp, _⟩ := s6 j (List.mem_cons_self ..)
  obtain ⟨_, stop, ok⟩ := C43_no_errors h limit scaled0 ops (n := j.1) (by rw [hp]; simp) true
  rw [s1] at ok
  have hpr : ∀ k, (tunerCompetition c limit scaled0).processError e.call j k s.comp = (.ok (stop, false), (s.comp.processError j.1).2) := by
    intro k
    simp only [tunerCompetition]
    rcases hx : s.comp.processError j.1 with ⟨y | u, t⟩
    · rw [hx] at ok; cases ok
    · rw [hx] at ok
      injection ok with ok
      subst ok; rfl
  rw [hpr] at h1 h3
  simp only at h1 h3
  rcases h3 with ⟨y, e1, _⟩ | ⟨stop', retry, e1, e2, e4, e3⟩
  · cases e1
  · injection e1 with e1
    injection e1 with e5 e6
    subst e5 e6
    obtain ⟨q1, q2⟩ := report_tuner h limit scaled0 saved0 (s' := s') ht (op := .error j.1) (ev := .failed j.1) (a := .failed j _ stop false s'.comp)
      (Or.inr ⟨rfl, rfl, h1⟩) rfl (fun hm => .failed j _ _ _ _ hm) e2 (by rw [e4]; rfl)
    rcases e3 with ⟨rfl, e3⟩ | ⟨rfl, e3⟩
    · refine ⟨(fun u hx => by cases hx), fun x hx => ?_⟩
      injection hx with hx
      subst hx
      exact q1 e3
    · exact ⟨fun _ _ => q2 _ e3, (fun x hx => by cases hx)⟩

/-! ### Runs -/

/-- What is fixed for a run: the number of void games, the status file and max-games at its start, and the events of the earlier runs. -/
structure RunStart (α : Type) where
  voids : Nat
  disk : Option (Nat × Saved α)
  maxGames : Option Int
  saved0 : List Ev

theorem clean_load {c : Config} (h : c.Ok) (scaled0 : α) : Tuner.load c scaled0 ((Tuner.clean c).save scaled0) = some (Tuner.clean c) := by
  have hi := clean_inv h none
  rw [load_saved (scaled0 := scaled0) h (s := (Tuner.clean c).save scaled0) hi rfl]
  rfl

theorem start_tuner {c : Config} (h : c.Ok) (limit : Option Int) (scaled0 : α) {ops : List TOp} {d : Option (Nat × Saved α)}
    (hd : SavedAs c scaled0 (Sys.run c limit scaled0 ops) d) {mg : Option Int} {e : Env MEnv} {s : RM Tuner Game Bool (Saved α) TExc}
    (hs : RM.start (tunerCompetition c limit scaled0) mg e d = some s) : TInv c limit scaled0 (Sys.run c limit scaled0 ops).savedLog s [] := by
  have hi := run_inv h limit scaled0 ops
  have hload := load_saved h hi.savedTree hi.path0
  have hrun : Sys.run c limit scaled0 (ops ++ [.restart]) =
      { Sys.run c limit scaled0 ops with
          tuner := ⟨(Simple.setstate (Sys.run c limit scaled0 ops).saved.scheduler.getstate).rollback, (Sys.run c limit scaled0 ops).saved.root, [], true⟩,
          log := .restarted :: (Sys.run c limit scaled0 ops).savedLog } := by
    rw [Sys.run_append]; simp only [Sys.step, hload]
  have hout : ((Simple.setstate (Sys.run c limit scaled0 ops).saved.scheduler.getstate).rollback).outstanding = [] := by
    obtain ⟨l, hl, _⟩ := hi.savedTree.sched
    rw [hl.reload_eq]; rfl
  obtain ⟨t, t0, f1, f2, f3, f4, f5⟩ := start_facts _ hs
  have ht : t = t0 := by
    cases hdis : e.display with
    | false => exact f4 hdis
    | true =>
      obtain ⟨u, hu⟩ := f5 hdis
      simp only [tunerCompetition, Prod.mk.injEq] at hu
      exact hu.2.symm
  subst ht
  have hcomp : s.comp = (Sys.run c limit scaled0 (ops ++ [.restart])).tuner := by
    have hc : s.comp = t := by rw [f1]
    rw [hc, hrun]
    cases d with
    | none =>
      obtain ⟨f6, _⟩ := f2 rfl
      have f7 : Tuner.clean c = t := Except.ok.inj f6
      have h1 := (hd.1 rfl).1
      rw [h1, clean_load h] at hload
      rw [← f7]
      simp only [h1]
      exact Option.some.inj hload
    | some p =>
      obtain ⟨v, sv⟩ := p
      obtain ⟨f6, _⟩ := f3 v sv rfl
      have h1 := hd.2 v sv rfl
      subst h1
      simp only [tunerCompetition, hload] at f6
      exact (Except.ok.inj f6).symm
  have hacts : s.acts = [] := by rw [f1]
  refine ⟨by rw [f1], ?_, List.nodup_nil, ⟨ops ++ [.restart], [], hcomp.symm, by rw [hrun]; rfl, ?_, ?_, ?_, (fun j hj => by cases hj)⟩, ?_⟩
  · rw [hcomp, hrun]
    simp only
    rw [hout]
    intro n hn; cases hn
  · rw [hrun, hacts]; exact Or.inl ⟨rfl, rfl⟩
  · rw [hacts]; exact .nil
  · rw [hrun]
    have : s.disk = d := by rw [f1]
    rw [this]; exact hd
  · rw [hacts]; intro hx; cases hx

/-- What holds when nothing is running. -/
def TDown (c : Config) (limit : Option Int) (scaled0 : α) (d : Option (Nat × Saved α)) (runs : List (List (Act Tuner Game Bool TExc))) : Prop :=
  ∃ ops, SavedAs c scaled0 (Sys.run c limit scaled0 ops) d ∧ Recorded c.splits runs (Sys.run c limit scaled0 ops).savedLog

theorem linked_recorded {splits : List Nat} {acts : List (Act Tuner Game Bool TExc)} {saved0 savedLog : List Ev} {runs : List (List (Act Tuner Game Bool TExc))}
    (h : Linked splits acts saved0 savedLog) (hr : Recorded splits runs saved0) : Recorded splits (upToReport acts :: runs) savedLog := by
  rcases h with ⟨h1, rfl⟩ | ⟨h1, evs, h2, rfl⟩
  · rw [h1]; exact .nothing hr
  · exact .run hr h1 h2

/-- The invariant of histories. -/
def THolds (c : Config) (limit : Option Int) (scaled0 : α) (runs : List (List (Act Tuner Game Bool TExc))) : World Tuner Game Bool (Saved α) TExc → Prop :=
  Holds (TDown c limit scaled0) (fun runs (t : RunStart α) => Recorded c.splits runs t.saved0)
    (fun t s fl => RInv (tunerCompetition c limit scaled0) t.voids t.disk t.maxGames s fl ∧ TInv c limit scaled0 t.saved0 s fl)
    (fun t x s => TBad c limit scaled0 t.saved0 x s) runs

theorem tuner_holds {c : Config} (h : c.Ok) (limit : Option Int) (scaled0 : α) (events : List (Event Bool MEnv)) :
    THolds c limit scaled0 (earlierRuns (tunerCompetition c limit scaled0) events) (World.after (tunerCompetition c limit scaled0) events) := by
  refine story_holds (tunerCompetition c limit scaled0) ?_ ?_ ?_ ?_ ?_ ?_ ?_ ?_ events
  · refine ⟨[], ⟨fun _ => ⟨rfl, rfl⟩, (fun v sv hx => by cases hx)⟩, .nil⟩
  · intro d runs mg e s ⟨ops, h1, h2⟩ hs
    refine ⟨⟨s.voidGameCount, d, mg, (Sys.run c limit scaled0 ops).savedLog⟩, h2, ?_, start_tuner h limit scaled0 h1 hs⟩
    have hk := start_kept _ hs (Nat.le_refl 1)
    have hfl : (Mp.start s 1 : Mp (RM Tuner Game Bool (Saved α) TExc) Game Bool (RExc TExc)).inFlight = [] := by
      obtain ⟨h1, _⟩ := hk.inv.phase
      exact List.eq_nil_of_length_eq_zero h1.symm
    have := hk.fine trivial
    rw [hfl] at this
    exact this
  · intro t
    have hk := (keeps (tunerCompetition c limit scaled0) t.voids t.disk t.maxGames).toPreserves
    refine ⟨?_, ?_, ?_, ?_, ?_⟩
    · intro s fl fl' ⟨h1, h2⟩ hp
      refine ⟨hk.perm h1 hp, h2.replay, fun n hn => ((hp.map Prod.fst).mem_iff).1 (h2.out n hn), (hp.map Prod.fst).nodup_iff.1 h2.nodup, ?_, h2.last⟩
      obtain ⟨ops, evs, s1, s2, s3, s4, s5, s6⟩ := h2.sys
      exact ⟨ops, evs, s1, s2, s3, s4, s5, fun j hj => s6 j (hp.mem_iff.2 hj)⟩
    · intro e s s' fl ⟨h1, h2⟩ hg
      exact ⟨hk.none h1 hg, (getJob_tuner h limit scaled0 t.saved0 h1 h2 e hg).1 rfl⟩
    · intro e s s' fl j ⟨h1, h2⟩ hg
      exact ⟨hk.some h1 hg, (getJob_tuner h limit scaled0 t.saved0 h1 h2 e hg).2.1 j rfl⟩
    · intro e s s' fl j x u ⟨h1, h2⟩ hg
      exact ⟨hk.response h1 hg, (processResponse_tuner h limit scaled0 t.saved0 h1 h2 e hg).1 u rfl⟩
    · intro e s s' fl j u ⟨h1, h2⟩ hg
      exact ⟨hk.error h1 hg, (processError_tuner h limit scaled0 t.saved0 h1 h2 e hg).1 u rfl⟩
  · intro t e s s' fl x ⟨h1, h2⟩ hg
    exact (getJob_tuner h limit scaled0 t.saved0 h1 h2 e hg).2.2 x rfl
  · intro t e s s' fl j x y ⟨h1, h2⟩ hg
    exact (processResponse_tuner h limit scaled0 t.saved0 h1 h2 e hg).2 y rfl
  · intro t e s s' fl j y ⟨h1, h2⟩ hg
    exact (processError_tuner h limit scaled0 t.saved0 h1 h2 e hg).2 y rfl
  · intro runs t s fl ht ⟨h1, h2⟩
    obtain ⟨ops, evs, s1, s2, s3, s4, s5, s6⟩ := h2.sys
    exact ⟨ops, s5, linked_recorded s3 ht⟩
  · intro runs t x s ht ⟨_, ops, h2, h3⟩
    exact ⟨ops, h2, linked_recorded h3 ht⟩

/-! ### The theorems -/

/-- C89: after any history of runs, stops, failed games, exceptions and crashes, with any number of workers and any interleaving, the tuner of a run in progress is one
which the simulations below account for: those of the runs which are over, as far as they're in the status file; and those of this run.  The games being played are
the simulations which are running, and have their parameters. -/
theorem C89_refines {c : Config} (h : c.Ok) (limit : Option Int) (scaled0 : α) (events : List (Event Bool MEnv))
    {m : Mp (RM Tuner Game Bool (Saved α) TExc) Game Bool (RExc TExc)} (hup : World.after (tunerCompetition c limit scaled0) events = .up m) (hf : m.phase.fine) :
    ∃ ops evs saved, (Sys.run c limit scaled0 ops).tuner = m.src.comp ∧ (Sys.run c limit scaled0 ops).log = evs ++ .restarted :: saved ∧
      Matches c.splits m.src.acts evs ∧ Recorded c.splits (earlierRuns (tunerCompetition c limit scaled0) events) saved ∧
      ∀ j ∈ m.inFlight, ∃ path, running j.1 (evs ++ .restarted :: saved) = some path ∧ parametersForPath c.splits path = .ok j.2 := by
  have h0 := tuner_holds h limit scaled0 events
  rw [hup] at h0
  obtain ⟨t, ht, hi, hfine, _⟩ := h0
  obtain ⟨h1, h2⟩ := hfine hf
  obtain ⟨ops, evs, s1, s2, s3, s4, s5, s6⟩ := h2.sys
  exact ⟨ops, evs, t.saved0, s1, s2, s4, ht, fun j hj => by rw [← s2]; exact s6 j hj⟩

/-- C89: the statistics in the tree are exactly those of the games whose results were reported in this run, or were reported in earlier runs and written to the status
file: each counts once at each node on the way to its parameters. -/
theorem C89_counts {c : Config} (h : c.Ok) (limit : Option Int) (scaled0 : α) (events : List (Event Bool MEnv))
    {m : Mp (RM Tuner Game Bool (Saved α) TExc) Game Bool (RExc TExc)} (hup : World.after (tunerCompetition c limit scaled0) events = .up m) (hf : m.phase.fine) :
    ∃ evs saved, Matches c.splits m.src.acts evs ∧ Recorded c.splits (earlierRuns (tunerCompetition c limit scaled0) events) saved ∧
      (ended (evs ++ .restarted :: saved)).Nodup ∧
      ∀ p n, m.src.comp.root.get p = some n → n.visits = c.initialVisits + through p (completed (evs ++ .restarted :: saved)) ∧
        n.wins = c.initialWins + wonThrough p (completed (evs ++ .restarted :: saved)) := by
  obtain ⟨ops, evs, saved, s1, s2, s3, s4, s5⟩ := C89_refines h limit scaled0 events hup hf
  refine ⟨evs, saved, s3, s4, by rw [← s2]; exact (C43_number_of_games h limit scaled0 ops).2.1, fun p n hp => ?_⟩
  rw [← s1] at hp
  rw [← s2]
  exact C43_counts h limit scaled0 ops hp

/-- C89: when nothing is running, the tree in the status file has the statistics of the games whose reports were written to it in some run; if there's no status file, nothing
was ever written. -/
theorem C89_status_file {c : Config} (h : c.Ok) (limit : Option Int) (scaled0 : α) (events : List (Event Bool MEnv)) {d : Option (Nat × Saved α)}
    (hdown : World.after (tunerCompetition c limit scaled0) events = .down d) :
    ∃ saved, Recorded c.splits (earlierRuns (tunerCompetition c limit scaled0) events) saved ∧ (d = none → saved = []) ∧
      ∀ v sv, d = some (v, sv) → ∀ p n, sv.root.get p = some n → n.visits = c.initialVisits + through p (completed saved) ∧ n.wins = c.initialWins + wonThrough p (completed saved) := by
  have h0 := tuner_holds h limit scaled0 events
  rw [hdown] at h0
  obtain ⟨ops, h1, h2⟩ := h0
  refine ⟨_, h2, fun hd => (h1.1 hd).2, fun v sv hd p n hp => ?_⟩
  rw [h1.2 v sv hd] at hp
  exact (run_inv h limit scaled0 ops).savedTree.stats p n hp

/-- C89: a run never ends because of an internal error: the only exceptions are CompetitionError (from the user's functions), and failing to write the status file. -/
theorem C89_no_internal_error {c : Config} (h : c.Ok) (limit : Option Int) (scaled0 : α) (events : List (Event Bool MEnv))
    {m : Mp (RM Tuner Game Bool (Saved α) TExc) Game Bool (RExc TExc)} (hup : World.after (tunerCompetition c limit scaled0) events = .up m)
    {x : RExc TExc} (hx : m.phase.exc = some x) : x = .comp .competitionError ∨ x = .statusWrite := by
  have h0 := tuner_holds h limit scaled0 events
  rw [hup] at h0
  obtain ⟨t, ht, hi, _, hexc⟩ := h0
  have := (hexc x hx).1
  rcases x with _ | _ | _ | (_ | _)
  · exact absurd this id
  · exact absurd this id
  · exact Or.inr rfl
  · exact absurd this id
  · exact Or.inl rfl

/-- C89: a run can always be started, from whatever status file earlier runs have left, unless the user's functions fail. -/
theorem C89_can_start {c : Config} (h : c.Ok) (limit : Option Int) (scaled0 : α) (events : List (Event Bool MEnv)) {d : Option (Nat × Saved α)}
    (hdown : World.after (tunerCompetition c limit scaled0) events = .down d) (mg : Option Int) (e : Env MEnv) (he : e.report.describeOk = true) :
    (RM.start (tunerCompetition c limit scaled0) mg e d).isSome := by
  have h0 := tuner_holds h limit scaled0 events
  rw [hdown] at h0
  obtain ⟨ops, h1, h2⟩ := h0
  refine start_isSome _ mg e d (fun _ => ⟨_, rfl⟩) (fun v sv hd => ?_) (fun t => ⟨(), t, by simp only [tunerCompetition, he, if_true]⟩)
  have hi := run_inv h limit scaled0 ops
  have hl := load_saved h hi.savedTree hi.path0
  rw [← h1.2 v sv hd] at hl
  simp only [tunerCompetition, hl]
  exact ⟨_, rfl⟩

/-- C89: if `number_of_games` is set, then when a run ends by itself exactly that many games have ended, over all the runs. -/
theorem C89_complete {c : Config} (h : c.Ok) {k : Int} (hk : 0 ≤ k) (scaled0 : α) (events : List (Event Bool MEnv))
    {m : Mp (RM Tuner Game Bool (Saved α) TExc) Game Bool (RExc TExc)} (hup : World.after (tunerCompetition c (some k) scaled0) events = .up m)
    (hf : m.phase = .returned none) (hstop : ¬ Stopped m.src.acts) :
    ∃ evs saved, Matches c.splits m.src.acts evs ∧ Recorded c.splits (earlierRuns (tunerCompetition c (some k) scaled0) events) saved ∧
      (ended (evs ++ .restarted :: saved)).Nodup ∧ (ended (evs ++ .restarted :: saved)).length = k := by
  have h0 := tuner_holds h (some k) scaled0 events
  rw [hup] at h0
  obtain ⟨t, ht, hi, hfine, _⟩ := h0
  obtain ⟨h1, h2⟩ := hfine (by rw [hf]; rfl)
  obtain ⟨ops, evs, s1, s2, s3, s4, s5, s6⟩ := h2.sys
  obtain ⟨before, mg, e, w, steps, s, g1, g2, g3, _, rfl⟩ := C88_history _ events m hup
  obtain ⟨_, g4⟩ := C88_end _ g1 g2 steps hf
  obtain ⟨k', hk', hle⟩ := h2.last (g4 hstop).1
  cases hk'
  have hp := hi.phase
  rw [hf] at hp
  obtain ⟨_, _, _, h4⟩ := hp
  have hfl := (h4 rfl).1
  obtain ⟨c1, c2, c3⟩ := C43_number_of_games h (some k) scaled0 ops
  obtain ⟨l, hl, hl2⟩ := (run_inv h (some k) scaled0 ops).tree.sched
  have hout : (Sys.run c (some k) scaled0 ops).tuner.scheduler.outstanding = [] := by
    rw [List.eq_nil_iff_forall_not_mem]
    intro n hn
    rw [s1] at hn
    have := h2.out n hn
    rw [hfl] at this; cases this
  have h5 := hl.issuedN
  rw [hout, hl2] at h5
  have h6 := (c3 k rfl hk).2.2
  rw [← s1] at hle
  rw [s2] at c2 h5 h6
  refine ⟨evs, t.saved0, s4, ht, c2, ?_⟩
  simp only [List.length_nil] at h5
  omega

theorem matches_offers {splits : List Nat} {acts : List (Act Tuner Game Bool TExc)} {evs : List Ev} (hm : Matches splits acts evs) {id : Game → Ring.Str} (hid : ∀ a b, id a = id b → a.1 = b.1)
    (hid2 : ∀ a b, a.1 = b.1 → id a = id b) (ho : AllInOrder id acts) : ((offers acts).map Prod.fst).Perm ((Ring.playing id acts).map Prod.fst ++ ended evs) := by
  have report : ∀ {l : List (Act Tuner Game Bool TExc)} {ev : List Ev} {j : Game}, AllInOrder id l → j ∈ Ring.playing id l →
      ((offers l).map Prod.fst).Perm ((Ring.playing id l).map Prod.fst ++ ended ev) →
      ((offers l).map Prod.fst).Perm (((Ring.playing id l).filter (fun j' => id j' ≠ id j)).map Prod.fst ++ j.1 :: ended ev) := by
    intro l ev j h1 h2 h3
    have hn := nodup_of h1
    rw [List.map_append, List.nodup_append] at hn
    have hp := (pop_perm hn.1 h2).map Prod.fst
    refine h3.trans ((hp.symm.append_right _).trans ?_)
    rw [List.map_cons, List.cons_append]
    exact List.perm_middle.symm
  induction hm with
  | nil => exact List.Perm.refl _
  | offered _ _ ih => exact (ih ho.2).cons _
  | result j won t _ ih => exact report ho.2 ho.1 (ih ho.2)
  | failed j k st rt t _ ih =>
    exact report ho.2 ho.1.1 (ih ho.2)
  | noGame _ ih => exact ih ho.2
  | halted _ ih => exact ih ho.2

/-- C89: the games given out in a run all have different numbers, and so different ids. -/
theorem C89_ids {c : Config} (h : c.Ok) (limit : Option Int) (scaled0 : α) (events : List (Event Bool MEnv))
    {m : Mp (RM Tuner Game Bool (Saved α) TExc) Game Bool (RExc TExc)} (hup : World.after (tunerCompetition c limit scaled0) events = .up m) (hf : m.phase.fine) :
    ((offers m.src.acts).map (tunerCompetition c limit scaled0).gameId).Nodup := by
  have h0 := tuner_holds h limit scaled0 events
  rw [hup] at h0
  obtain ⟨t, ht, hi, hfine, _⟩ := h0
  obtain ⟨h1, h2⟩ := hfine hf
  obtain ⟨ops, evs, s1, s2, s3, s4, s5, s6⟩ := h2.sys
  have hp := matches_offers s4 (id := (tunerCompetition c limit scaled0).gameId) (fun a b hab => Cem.toDigits_inj hab)
    (fun a b hab => by simp only [tunerCompetition]; rw [hab]) h1.order
  have hfl := (h1.playing.trans h1.flight.symm).map Prod.fst
  have hend := (C43_number_of_games h limit scaled0 ops).2.1
  have hsplit : ∀ (evs : List Ev) (saved : List Ev), ended (evs ++ .restarted :: saved) = ended evs ++ ended saved := by
    intro evs saved
    induction evs with
    | nil => rfl
    | cons a l ih => cases a <;> simp [ended, ih]
  have hnd : ((offers m.src.acts).map Prod.fst).Nodup := by
    refine hp.nodup_iff.2 ?_
    rw [List.nodup_append]
    refine ⟨hfl.nodup_iff.2 h2.nodup, ?_, ?_⟩
    · rw [s2, hsplit] at hend
      exact (List.nodup_append.1 hend).1
    · intro a ha b hb
      rintro rfl
      obtain ⟨j, hj, rfl⟩ := List.mem_map.1 ((hfl.mem_iff).1 ha)
      obtain ⟨path, hpath, _⟩ := s6 j hj
      have hii := run_inv h limit scaled0 ops
      obtain ⟨l, hl, hl2⟩ := hii.tree.sched
      refine hl.disOF _ (hii.tree.current _ _ hpath).2.2 ?_
      rw [hl2, s2, hsplit]
      exact List.mem_append_left _ hb
  have : (offers m.src.acts).map (tunerCompetition c limit scaled0).gameId = ((offers m.src.acts).map Prod.fst).map (Nat.toDigits 10) := by
    rw [List.map_map]; rfl
  rw [this]
  exact (List.nodup_map_iff (fun a b hab => Cem.toDigits_inj hab)).2 hnd

/-! ### An example -/

def ringEnv : Env MEnv := ⟨false, 0, true, true, ⟨fun _ => 0, fun _ => true, true⟩, ⟨fun _ => 0, fun _ => true, true⟩⟩

/-- A run with two workers: game 0 is won, game 1 fails, games 2 and 3 are started; then the program crashes.  A second run, without --max-games, plays games 2 and 3 again; then there
are no more. -/
def ringEvents : List (Event Bool MEnv) :=
  [.start (some 4) ringEnv 2, .step (.mgr ringEnv), .step (.mgr ringEnv), .step (.take 0), .step (.take 1), .step (.mgr ringEnv), .step (.finishJob 0 (some true)), .step (.mgr ringEnv), .step (.mgr ringEnv),
   .step (.finishJob 1 none), .step (.mgr ringEnv), .step (.mgr ringEnv), .step (.mgr ringEnv), .step (.take 0), .step (.take 1), .down,
   .start none ringEnv 1, .step (.mgr ringEnv), .step (.mgr ringEnv), .step (.take 0), .step (.finishJob 0 (some false)), .step (.mgr ringEnv), .step (.mgr ringEnv), .step (.mgr ringEnv), .step (.take 0),
   .step (.finishJob 0 (some true)), .step (.mgr ringEnv), .step (.mgr ringEnv), .step (.mgr ringEnv), .step (.take 0), .step (.mgr ringEnv)]

def ringKind : Act Tuner Game Bool TExc → Nat × Nat
  | .offered j => (0, j.1)
  | .result j won _ => (if won then 1 else 2, j.1)
  | .failed j _ _ _ _ => (3, j.1)
  | .noGame => (4, 0)
  | _ => (5, 0)

/-- The record of the runs which are over, whether the latest has returned by itself, its record, and the statistics at the root. -/
def ringSummary (events : List (Event Bool MEnv)) : List (List (Nat × Nat)) × Option (Bool × List (Nat × Nat) × Nat × Nat) :=
  ((earlierRuns (tunerCompetition sampleConfig (some 4) ()) events).map (·.map ringKind),
   match World.after (tunerCompetition sampleConfig (some 4) ()) events with
   | .down _ => none
   | .up m => some (m.phase == .returned none, m.src.acts.map ringKind, m.src.comp.root.wins, m.src.comp.root.visits))

/-- C89: the two runs of `ringEvents`. -/
theorem C89_witness : sampleConfig.Ok ∧ ringSummary ringEvents =
    ([[(3, 1), (0, 2), (1, 0), (0, 1), (0, 0)]],
     some (true, [(4, 0), (1, 3), (0, 3), (2, 2), (0, 2)], 7, 13)) := by
  exact ⟨sampleConfig_ok, by decide +kernel⟩

end Gomill.Mcts
