import Verif.Lemmas.RingAny
import Verif.Lemmas.RingmasterErrors
import Verif.Props.Jobs
import Mathlib.Data.List.Induction
/-
C88: the ringmaster keeps its side of the contract with any competition: gomill/ringmasters.py, gomill/competitions.py.
-/
namespace Gomill.Jobs
variable {σ J X ε E : Type}

/-- C41: a run without worker processes makes the same calls to the job source, with the same effects and the same end, as a run
with one worker process (with a certain interleaving); so what holds for every run with workers holds for it. -/
theorem C41_one_worker (S : Source σ J X ε E) (src : σ) (l : List (ε × ε × Option X)) :
    ∃ steps, let m := (Mp.start src 1 : Mp σ J X E).run S steps
      let a := (Ip.start src : Ip σ J X E).run S l
      m.src = a.src ∧ m.log = a.log ∧ (a.over = none → m.phase = .looping ∧ m.inFlight = []) ∧
        ∀ exc, a.over = some exc → m.phase = .returned exc := by
  obtain ⟨steps, h1, h2, _, h3⟩ := in_process_sim S l (Ip.start src) (Mp.start src 1)
    ⟨rfl, rfl, rfl, Or.inl ⟨rfl, rfl, rfl, rfl, rfl, rfl⟩⟩
  refine ⟨steps, h1, h2, ?_, ?_⟩
  · intro ho
    rcases h3 with ⟨_, h4, _, h5, h6, h7⟩ | ⟨exc, h4, _⟩
    · refine ⟨h4, ?_⟩
      unfold Mp.inFlight Mp.queued Mp.running; rw [h5, h6, h7]; rfl
    · rw [ho] at h4; cases h4
  · intro exc ho
    rcases h3 with ⟨h4, _⟩ | ⟨exc', h4, h5⟩
    · rw [ho] at h4; cases h4
    · rw [ho] at h4; cases h4; exact h5

end Gomill.Jobs

namespace Gomill.Ring
open Jobs
variable {σ J X η V E : Type}

/-! ### The record is what happened -/

theorem updateDisplay_acts (C : Competition σ J X η V E) {s s' : RM σ J X V E} {b : Bool} {e : η} {u : Unit}
    (h : s.updateDisplay C b e = (.ok u, s')) : s'.acts = s.acts := by
  obtain ⟨c, rfl⟩ := updateDisplay_ok h; rfl

theorem nextJob_acts (C : Competition σ J X η V E) {e : Env η} {s s' : RM σ J X V E} {r : Option J} (h : RM.nextJob C e s = (.ok r, s')) :
    startedJobs s'.acts = r.toList ++ startedJobs s.acts ∧ reports s'.acts = reports s.acts := by
  unfold RM.nextJob at h
  split at h
  · simp only [Prod.mk.injEq, Except.ok.injEq] at h
    obtain ⟨rfl, rfl⟩ := h
    exact ⟨rfl, rfl⟩
  · unfold RM.newGame at h
    rcases hg : C.getGame e.call s.comp with ⟨x | _ | j, c⟩ <;> rw [hg] at h <;> simp only at h
    · simp only [Prod.mk.injEq, reduceCtorEq, false_and] at h
    · simp only [Prod.mk.injEq, Except.ok.injEq] at h
      obtain ⟨rfl, rfl⟩ := h
      exact ⟨rfl, rfl⟩
    · split at h
      · simp only [Prod.mk.injEq, reduceCtorEq, false_and] at h
      · simp only [Prod.mk.injEq, Except.ok.injEq] at h
        obtain ⟨rfl, rfl⟩ := h
        exact ⟨rfl, rfl⟩

theorem getJob1_acts (C : Competition σ J X η V E) {e : Env η} {s s' : RM σ J X V E} {r : Option J} (h : RM.getJob1 C e s = (.ok r, s')) :
    startedJobs s'.acts = r.toList ++ startedJobs s.acts ∧ reports s'.acts = reports s.acts := by
  unfold RM.getJob1 at h
  split at h
  · simp only [Prod.mk.injEq, Except.ok.injEq] at h
    obtain ⟨rfl, rfl⟩ := h
    exact ⟨rfl, rfl⟩
  · split at h
    · simp only [Prod.mk.injEq, Except.ok.injEq] at h
      obtain ⟨rfl, rfl⟩ := h
      exact ⟨rfl, rfl⟩
    · cases hm : s.maxGames with
      | none => rw [hm] at h; exact nextJob_acts C h
      | some k =>
        rw [hm] at h
        simp only at h
        split at h
        · simp only [Prod.mk.injEq, Except.ok.injEq] at h
          obtain ⟨rfl, rfl⟩ := h
          exact ⟨rfl, rfl⟩
        · have := nextJob_acts C h
          exact this

theorem getJob_acts (C : Competition σ J X η V E) {e : Env η} {s s' : RM σ J X V E} {r : Option J} (h : RM.getJob C e s = (.ok r, s')) :
    startedJobs s'.acts = r.toList ++ startedJobs s.acts ∧ reports s'.acts = reports s.acts := by
  unfold RM.getJob at h
  rcases hg : s.getJob1 C e with ⟨x | r1, s1⟩ <;> rw [hg] at h <;> simp only at h
  · simp only [Prod.mk.injEq, reduceCtorEq, false_and] at h
  · rcases hd : s1.updateDisplay C e.display e.report with ⟨y | _, s2⟩ <;> rw [hd] at h <;> simp only at h
    · simp only [Prod.mk.injEq, reduceCtorEq, false_and] at h
    · simp only [Prod.mk.injEq, Except.ok.injEq] at h
      obtain ⟨rfl, rfl⟩ := h
      rw [updateDisplay_acts C hd]
      exact getJob1_acts C hg

theorem writeStatus_acts (C : Competition σ J X η V E) {e : Env η} {s s' : RM σ J X V E} {u : Unit} (h : s.writeStatus C e = (.ok u, s')) :
    s'.acts = s.acts := by
  unfold RM.writeStatus at h
  split at h
  · simp only [Prod.mk.injEq] at h; rw [← h.2]
  · simp only [Prod.mk.injEq, reduceCtorEq, false_and] at h

theorem processResponse_acts (C : Competition σ J X η V E) {e : Env η} {j : J} {x : X} {s s' : RM σ J X V E} {u : Unit}
    (h : RM.processResponse C e j x s = (.ok u, s')) : ∃ c, s'.acts = .result j x c :: s.acts := by
  unfold RM.processResponse at h
  rcases hr : C.processResult e.call j x s.comp with ⟨y | _, c⟩ <;> rw [hr] at h <;> simp only at h
  · simp only [Prod.mk.injEq, reduceCtorEq, false_and] at h
  · cases hp : popJob C s.inProgress (C.gameId j) with
    | none => rw [hp] at h; simp only [Prod.mk.injEq, reduceCtorEq, false_and] at h
    | some p => rw [hp] at h; exact ⟨c, writeStatus_acts C h⟩

theorem bookError_acts (C : Competition σ J X η V E) {s s' : RM σ J X V E} {j : J} {p : Nat} {retry : Bool}
    (h : RM.bookError C s j p retry = some s') : s'.acts = s.acts := by
  unfold RM.bookError at h
  split at h
  · cases h
  · split at h
    · rw [← Option.some.inj h]
    · split at h <;> rw [← Option.some.inj h]

theorem processError_acts (C : Competition σ J X η V E) {e : Env η} {j : J} {s s' : RM σ J X V E} {u : Unit}
    (h : RM.processError C e j s = (.ok u, s')) : ∃ n stop retry c, s'.acts = .failed j n stop retry c :: s.acts := by
  unfold RM.processError at h
  rcases hr : C.processError e.call j (errorCount s.errorCounts (C.gameId j)) s.comp with ⟨y | ⟨stop, retry⟩, c⟩ <;> rw [hr] at h <;> simp only at h
  · simp only [Prod.mk.injEq, reduceCtorEq, false_and] at h
  · split at h
    · simp only [Prod.mk.injEq, reduceCtorEq, false_and] at h
    · rename_i s1 hb
      rcases hw : s1.writeStatus C e with ⟨y | _, s2⟩ <;> rw [hw] at h <;> simp only at h
      · simp only [Prod.mk.injEq, reduceCtorEq, false_and] at h
      · simp only [Prod.mk.injEq] at h
        refine ⟨errorCount s.errorCounts (C.gameId j), stop, retry, c, ?_⟩
        have h2 : s'.acts = s2.acts := by
          rw [← h.2]; split <;> rfl
        rw [h2, writeStatus_acts C hw, bookError_acts C hb]

theorem preservesLog (C : Competition σ J X η V E) : PreservesLog (source C)
    (fun s _ l => startedJobs s.acts = gotJobs l ∧ reports s.acts = processedJobs l) where
  perm h _ := h
  ran h := h
  none {e s s' fl l} h hg := by
    obtain ⟨h1, h2⟩ := getJob_acts C hg
    exact ⟨h1.trans h.1, h2.trans h.2⟩
  some {e s s' fl j l} h hg := by
    obtain ⟨h1, h2⟩ := getJob_acts C hg
    exact ⟨by rw [h1, h.1]; rfl, h2.trans h.2⟩
  response {e s s' fl j x u l} h hg := by
    obtain ⟨c, h1⟩ := processResponse_acts C hg
    rw [h1]
    exact ⟨h.1, congrArg (_ :: ·) h.2⟩
  error {e s s' fl j u l} h hg := by
    obtain ⟨_, _, _, c, h1⟩ := processError_acts C hg
    rw [h1]
    exact ⟨h.1, congrArg (_ :: ·) h.2⟩

/-! ### Starting -/

theorem start_facts (C : Competition σ J X η V E) {mg : Option Int} {e : Env η} {d : Option (Nat × V)} {s : RM σ J X V E}
    (h : RM.start C mg e d = some s) :
    (∃ c c0, s = ⟨c, s.voidGameCount, [], [], [], mg, false, d, []⟩ ∧
      (d = none → C.clean e.call = .ok c0 ∧ s.voidGameCount = 0) ∧
      (∀ v w, d = some (v, w) → C.load e.call w = .ok c0 ∧ s.voidGameCount = v) ∧
      (e.display = false → c = c0) ∧ (e.display = true → ∃ u, C.screenReport e.report c0 = (.ok u, c))) := by
  have key : ∀ (p : Nat × σ), (match RM.updateDisplay C ⟨p.2, p.1, [], [], [], mg, false, d, []⟩ e.display e.report with
      | (.ok _, s) => some s
      | (.error _, _) => none) = some s → ∃ c, s = ⟨c, p.1, [], [], [], mg, false, d, []⟩ ∧
      (e.display = false → c = p.2) ∧ (e.display = true → ∃ u, C.screenReport e.report p.2 = (.ok u, c)) := by
    intro p hp
    unfold RM.updateDisplay at hp
    by_cases hd : e.display = true
    · rw [if_pos hd] at hp
      simp only at hp
      rcases hr : C.screenReport e.report p.2 with ⟨y | u, c⟩ <;> rw [hr] at hp <;> simp only at hp
      · cases hp
      · exact ⟨c, (Option.some.inj hp).symm, (fun hf => by rw [hd] at hf; cases hf), fun _ => ⟨u, rfl⟩⟩
    · rw [if_neg hd] at hp
      exact ⟨p.2, (Option.some.inj hp).symm, fun _ => rfl, fun hf => absurd hf hd⟩
  unfold RM.start at h
  cases hd : d with
  | none =>
    rw [hd] at h key
    simp only at h
    cases hc : C.clean e.call with
    | error y => rw [hc] at h; cases h
    | ok c0 =>
      rw [hc] at h
      obtain ⟨c, h1, h2, h3⟩ := key (0, c0) h
      exact ⟨c, c0, by rw [h1], fun _ => ⟨rfl, by rw [h1]⟩, (fun _ _ hx => by cases hx), h2, h3⟩
  | some p =>
    rcases p with ⟨v, w⟩
    rw [hd] at h key
    simp only at h
    cases hc : C.load e.call w with
    | error y => rw [hc] at h; cases h
    | ok c0 =>
      rw [hc] at h
      obtain ⟨c, h1, h2, h3⟩ := key (v, c0) h
      refine ⟨c, c0, by rw [h1], (fun hx => by cases hx), ?_, h2, h3⟩
      intro v' w' hx
      cases hx
      exact ⟨hc, by rw [h1]⟩

theorem start_kept (C : Competition σ J X η V E) {mg : Option Int} {e : Env η} {d : Option (Nat × V)} {s : RM σ J X V E}
    (h : RM.start C mg e d = some s) {w : Nat} (hw : 1 ≤ w) :
    Kept (RInv C s.voidGameCount d mg) (QInv C s.voidGameCount d mg) (AtEnd C) (Mp.start s w : Mp (RM σ J X V E) J X (RExc E)) := by
  obtain ⟨c, c0, hs, _⟩ := start_facts C h
  have hi := MInv.start (J := J) (X := X) (E := RExc E) s hw
  have hr : RInv C s.voidGameCount d mg s [] := by
    rw [hs]
    refine ⟨List.Perm.refl _, by simp, List.Perm.refl _, List.Perm.refl _, ⟨(fun h => by cases h), fun h => absurd h id⟩, fun _ => rfl, trivial, rfl, rfl, ?_, (fun a ha => by cases ha)⟩
    intro k hk; exact ⟨k, hk, Nat.le_of_eq (Nat.zero_add k)⟩
  have hfl : (Mp.start s w : Mp (RM σ J X V E) J X (RExc E)).inFlight = [] := by
    have := hi.phase
    obtain ⟨h1, _⟩ := this
    exact List.eq_nil_of_length_eq_zero h1.symm
  refine ⟨hi, fun _ => ?_, hr.q, fun hf => absurd hf id⟩
  rw [hfl]; exact hr

/-! ### The theorems -/

section
variable (C : Competition σ J X η V E) {mg : Option Int} {e : Env η} {d : Option (Nat × V)} {s : RM σ J X V E}
  (hs : RM.start C mg e d = some s) {w : Nat} (hw : 1 ≤ w) (steps : List (Step X (Env η)))
include hs hw

/-- C88: whatever the competition does, and however the worker processes' steps interleave, everything that the ringmaster asks of the competition and starts is
in order: it asks for a game only if the run hasn't been stopped and no game is to be retried; it reports a result or a failure only of a game which is being
played; the count which goes with a failure is the number of failures of that game id since it last failed for good; a game is restarted only if the competition
asked for it, and only once for each time it did.  This is so even if the competition raises exceptions, or gives jobs with duplicate ids. -/
theorem C88_in_order : AllInOrder C.gameId ((Mp.start s w).run (source C) steps).src.acts :=
  (kept_run (keeps C s.voidGameCount d mg) steps (start_kept C hs hw)).always.order

/-- C88: the record is of what happens: so long as nothing raises an exception, the games started are the jobs given to the job manager, in order; the outcomes
reported to the competition are those the job manager reported, in order; and the games being played are the ones which the workers have, or which are in the queues. -/
theorem C88_record (hf : ((Mp.start s w).run (source C) steps).phase.fine) :
    let m := (Mp.start s w : Mp (RM σ J X V E) J X (RExc E)).run (source C) steps
    startedJobs m.src.acts = gotJobs m.log ∧ reports m.src.acts = processedJobs m.log ∧
      (playing C.gameId m.src.acts).Perm m.inFlight ∧ m.src.inProgress.Perm m.inFlight := by
  intro m
  have hk := kept_run (keeps C s.voidGameCount d mg) steps (start_kept C hs hw)
  have hr := hk.fine hf
  have hl : ∀ (l : List (Step X (Env η))) (m0 : Mp (RM σ J X V E) J X (RExc E)),
      (m0.phase.fine → startedJobs m0.src.acts = gotJobs m0.log ∧ reports m0.src.acts = processedJobs m0.log) →
      (m0.run (source C) l).phase.fine → startedJobs (m0.run (source C) l).src.acts = gotJobs (m0.run (source C) l).log ∧
        reports (m0.run (source C) l).src.acts = processedJobs (m0.run (source C) l).log := by
    intro l
    induction l with
    | nil => intro m0 h; exact h
    | cons a l ih => intro m0 h; exact ih _ (preservedLog_step (preservesLog C) a h)
  obtain ⟨c, c0, hs', _⟩ := start_facts C hs
  have h0 := hl steps (Mp.start s w) (fun _ => by
    have : (Mp.start s w : Mp (RM σ J X V E) J X (RExc E)).src.acts = [] := by show s.acts = []; rw [hs']
    rw [this]; exact ⟨rfl, rfl⟩) hf
  exact ⟨h0.1, h0.2, hr.playing.trans hr.flight.symm, hr.flight.symm⟩

/-- C88: the status file always has the competition's state just after the latest report (and the number of void games so far); it's as it was at the start of the
run if there has been none.  If the run ended with an exception while processing a report, the file may lack that report. -/
theorem C88_status_file :
    let m := (Mp.start s w : Mp (RM σ J X V E) J X (RExc E)).run (source C) steps
    (m.phase.fine → m.src.disk = statusFile C.save s.voidGameCount d m.src.acts) ∧
    (m.src.disk = statusFile C.save s.voidGameCount d m.src.acts ∨ m.src.disk = statusFile C.save s.voidGameCount d m.src.acts.tail) := by
  intro m
  have hk := kept_run (keeps C s.voidGameCount d mg) steps (start_kept C hs hw)
  exact ⟨fun hf => (hk.fine hf).disk, hk.always.disk⟩

/-- C88: with --max-games=k, at most k games are started. -/
theorem C88_max_games {k : Nat} (hk : mg = some (k : Int)) :
    starts ((Mp.start s w).run (source C) steps).src.acts ≤ k :=
  (kept_run (keeps C s.voidGameCount d mg) steps (start_kept C hs hw)).always.max k hk

/-- C88: when the run ends without an exception, every game which was started has been reported; and if it wasn't stopped, then the competition's last word was that it
had no more games, and no game remained to be retried. -/
theorem C88_end (hf : ((Mp.start s w).run (source C) steps).phase = .returned none) :
    let acts := ((Mp.start s w : Mp (RM σ J X V E) J X (RExc E)).run (source C) steps).src.acts
    playing C.gameId acts = [] ∧ (¬ Stopped acts → acts.head? = some .noGame ∧ waiting C.gameId acts = []) := by
  intro acts
  have hk := kept_run (keeps C s.voidGameCount d mg) steps (start_kept C hs hw)
  have hr := hk.fine (by rw [hf]; rfl)
  have hover := hk.over (by rw [hf]; rfl)
  have hp := hk.inv.phase
  rw [hf] at hp
  obtain ⟨_, _, _, h4⟩ := hp
  have h5 := (h4 rfl).1
  refine ⟨?_, fun hn => hover.resolve_left hn⟩
  have h6 := hr.playing.trans hr.flight.symm
  rw [h5] at h6
  exact h6.eq_nil

/-- C88: an exception ends the run: nothing more is asked of the competition after one of its methods has raised, or it has given a duplicate id. -/
theorem C88_exception :
    ∀ a ∈ ((Mp.start s w).run (source C) steps).src.acts.tail, (∀ x, a ≠ .raised x) ∧ ∀ j, a ≠ .clash j :=
  (kept_run (keeps C s.voidGameCount d mg) steps (start_kept C hs hw)).always.fine

end

/-! ### How often a game has failed -/

theorem offers_of {id : J → Str} : ∀ {l : List (Act σ J X E)}, AllInOrder id l →
    (∀ j, j ∈ playing id l → j ∈ offers l) ∧ (∀ j, j ∈ waiting id l → j ∈ offers l) ∧
    ∀ j n a b c, Act.failed j n a b c ∈ l → j ∈ offers l := by
  intro l
  induction l with
  | nil => intro _; exact ⟨(fun _ h => by cases h), (fun _ h => by cases h), fun _ _ _ _ _ h => by cases h⟩
  | cons a l ih =>
    intro ⟨ha, hl⟩
    obtain ⟨h1, h2, h3⟩ := ih hl
    have tail : ∀ {b : Act σ J X E}, b ∈ a :: l → b ≠ a → b ∈ l := fun hb hne => (List.mem_cons.1 hb).resolve_left hne
    cases a with
    | offered j0 =>
      refine ⟨fun j hj => ?_, fun j hj => List.mem_cons_of_mem _ (h2 j hj), fun j n a b c hj => List.mem_cons_of_mem _ (h3 j n a b c (tail hj (by simp)))⟩
      rcases List.mem_cons.1 hj with rfl | hj
      · exact List.mem_cons_self ..
      · exact List.mem_cons_of_mem _ (h1 j hj)
    | again j0 =>
      refine ⟨fun j hj => ?_, fun j hj => h2 j (List.mem_of_mem_filter hj), fun j n a b c hj => h3 j n a b c (tail hj (by simp))⟩
      rcases List.mem_cons.1 hj with rfl | hj
      · exact h2 _ ha.2
      · exact h1 j hj
    | result j0 x c0 =>
      exact ⟨fun j hj => h1 j (List.mem_of_mem_filter hj), h2, fun j n a b c hj => h3 j n a b c (tail hj (by simp))⟩
    | failed j0 n0 st rt c0 =>
      refine ⟨fun j hj => h1 j (List.mem_of_mem_filter hj), fun j hj => ?_, fun j n a b c hj => ?_⟩
      · cases st <;> cases rt
        · exact h2 j hj
        · rcases List.mem_cons.1 hj with rfl | hj
          · exact h1 _ ha.1
          · exact h2 j hj
        · exact h2 j hj
        · exact h2 j hj
      · rcases List.mem_cons.1 hj with he | hj
        · injection he with he1; rw [he1]; exact h1 _ ha.1
        · exact h3 j n a b c hj
    | noGame => exact ⟨h1, h2, fun j n a b c hj => h3 j n a b c (tail hj (by simp))⟩
    | clash _ => exact ⟨h1, h2, fun j n a b c hj => h3 j n a b c (tail hj (by simp))⟩
    | halted => exact ⟨h1, h2, fun j n a b c hj => h3 j n a b c (tail hj (by simp))⟩
    | raised _ => exact ⟨h1, h2, fun j n a b c hj => h3 j n a b c (tail hj (by simp))⟩

theorem timesFailed_zero {id : J → Str} {i : Str} : ∀ {l : List (Act σ J X E)},
    (∀ j n a b c, Act.failed j n a b c ∈ l → id j ≠ i) → timesFailed id i l = 0 ∧ failures id i l = 0 := by
  intro l
  induction l with
  | nil => intro _; exact ⟨rfl, rfl⟩
  | cons a l ih =>
    intro h
    have ih' := ih (fun j n a b c hj => h j n a b c (List.mem_cons_of_mem _ hj))
    cases a with
    | failed j n a b c =>
      have := h j n a b c (List.mem_cons_self ..)
      unfold timesFailed failures
      rw [if_neg this, if_neg this]; exact ih'
    | _ => exact ih'

/-- The games being played and the games to be retried all have different ids. -/
theorem nodup_of {id : J → Str} : ∀ {l : List (Act σ J X E)}, AllInOrder id l → ((playing id l ++ waiting id l).map id).Nodup := by
  intro l
  induction l with
  | nil => intro _; simp [playing, waiting]
  | cons a l ih =>
    intro ⟨ha, hl⟩
    have h0 := ih hl
    have h1 := h0
    rw [List.map_append, List.nodup_append] at h1
    cases a with
    | offered j =>
      obtain ⟨_, h2, h3⟩ := ha
      show ((j :: playing id l ++ waiting id l).map id).Nodup
      rw [h2, List.append_nil, List.map_cons, List.nodup_cons]
      exact ⟨h3, h1.1⟩
    | again j =>
      have hp := pop_perm h1.2.1 ha.2
      have hp' : (j :: playing id l ++ (waiting id l).filter (fun j' => id j' ≠ id j)).Perm (playing id l ++ waiting id l) :=
        List.perm_middle.symm.trans (hp.append_left _)
      exact (hp'.map id).nodup_iff.2 h0
    | result j x c =>
      exact ((List.filter_sublist (p := fun j' => decide (id j' ≠ id j))).append (List.Sublist.refl _) |>.map _).nodup h0
    | failed j n st rt c =>
      have hsub : (((playing id l).filter (fun j' => id j' ≠ id j) ++ waiting id l).map id).Nodup :=
        ((List.filter_sublist (p := fun j' => decide (id j' ≠ id j))).append (List.Sublist.refl _) |>.map _).nodup h0
      cases st <;> cases rt
      · exact hsub
      · have hp := pop_perm h1.1 ha.1
        have hp' : ((playing id l).filter (fun j' => id j' ≠ id j) ++ j :: waiting id l).Perm (playing id l ++ waiting id l) :=
          List.perm_middle.trans (hp.append_right _)
        exact (hp'.map id).nodup_iff.2 h0
      · exact hsub
      · exact hsub
    | noGame => exact h0
    | clash _ => exact h0
    | halted => exact h0
    | raised _ => exact h0

theorem failures_eq {id : J → Str} : ∀ {l : List (Act σ J X E)}, AllInOrder id l → ((offers l).map id).Nodup →
    ∀ j, (j ∈ playing id l ∨ j ∈ waiting id l) → failures id (id j) l = timesFailed id (id j) l := by
  intro l
  induction l with
  | nil => intro _ _ j h; rcases h with h | h <;> cases h
  | cons a l ih =>
    intro ⟨ha, hl⟩ hn j hj
    have uniq : ∀ {a b : J} {l : List J}, (l.map id).Nodup → a ∈ l → b ∈ l → id a = id b → a = b := by
      intro a b l hn ha hb he
      have h1 := find_mem hn ha
      have h2 := find_mem hn hb
      rw [he, h2] at h1
      exact (Option.some.inj h1).symm
    cases a with
    | offered j0 =>
      have hn' : id j0 ∉ (offers l).map id ∧ ((offers l).map id).Nodup := List.nodup_cons.1 hn
      have hz : ∀ j1, id j1 = id j0 → timesFailed id (id j1) l = 0 ∧ failures id (id j1) l = 0 := by
        intro j1 he
        refine timesFailed_zero (fun j n a b c hf he' => ?_)
        exact hn'.1 (he ▸ he' ▸ List.mem_map_of_mem ((offers_of hl).2.2 j n a b c hf))
      show failures id (id j) l = timesFailed id (id j) l
      rcases hj with hj | hj
      · rcases List.mem_cons.1 hj with rfl | hj
        · obtain ⟨h1, h2⟩ := hz _ rfl; rw [h1, h2]
        · exact ih hl hn'.2 j (Or.inl hj)
      · exact ih hl hn'.2 j (Or.inr hj)
    | again j0 =>
      show failures id (id j) l = timesFailed id (id j) l
      rcases hj with hj | hj
      · rcases List.mem_cons.1 hj with rfl | hj
        · exact ih hl hn _ (Or.inr ha.2)
        · exact ih hl hn j (Or.inl hj)
      · exact ih hl hn j (Or.inr (List.mem_of_mem_filter hj))
    | result j0 x c0 =>
      show failures id (id j) l = timesFailed id (id j) l
      rcases hj with hj | hj
      · exact ih hl hn j (Or.inl (List.mem_of_mem_filter hj))
      · exact ih hl hn j (Or.inr hj)
    | failed j0 n0 st rt c0 =>
      have other : id j0 ≠ id j → (j ∈ playing id l ∨ j ∈ waiting id l) →
          failures id (id j) (Act.failed j0 n0 st rt c0 :: l) = timesFailed id (id j) (Act.failed j0 n0 st rt c0 :: l) := by
        intro hne hj'
        unfold timesFailed failures
        rw [if_neg hne, if_neg hne]; exact ih hl hn j hj'
      rcases hj with hj | hj
      · have h1 := List.mem_filter.1 hj
        have hne : id j ≠ id j0 := by simpa using h1.2
        exact other hne.symm (Or.inl h1.1)
      · have hoff : j0 ∈ offers l := (offers_of hl).1 _ ha.1
        have hw : st = false ∧ rt = true ∧ j = j0 ∨ j ∈ waiting id l := by
          cases st <;> cases rt
          · exact Or.inr hj
          · rcases List.mem_cons.1 hj with rfl | hj
            · exact Or.inl ⟨rfl, rfl, rfl⟩
            · exact Or.inr hj
          · exact Or.inr hj
          · exact Or.inr hj
        rcases hw with ⟨rfl, rfl, rfl⟩ | hw
        · unfold timesFailed failures
          rw [if_pos rfl, if_pos rfl, ih hl hn _ (Or.inl ha.1)]; rfl
        · by_cases he : id j0 = id j
          · have hej : j0 = j := uniq hn hoff ((offers_of hl).2.1 _ hw) he
            rw [hej] at ha
            have hnd := nodup_of hl
            rw [List.map_append, List.nodup_append] at hnd
            exact absurd rfl (hnd.2.2 _ (List.mem_map_of_mem ha.1) _ (List.mem_map_of_mem hw))
          · exact other he (Or.inr hw)
    | noGame => exact ih hl hn j hj
    | clash _ => exact ih hl hn j hj
    | halted => exact ih hl hn j hj
    | raised _ => exact ih hl hn j hj

/-- What came before something in the record. -/
theorem inOrder_suffix {id : J → Str} : ∀ {l1 l2 : List (Act σ J X E)}, AllInOrder id (l1 ++ l2) → AllInOrder id l2 := by
  intro l1
  induction l1 with
  | nil => intro l2 h; exact h
  | cons a l1 ih => intro l2 h; exact ih h.2

theorem offers_append (l1 l2 : List (Act σ J X E)) : offers (l1 ++ l2) = offers l1 ++ offers l2 := by
  induction l1 with
  | nil => rfl
  | cons a l1 ih =>
    cases a with
    | offered j => exact congrArg (j :: ·) ih
    | _ => exact ih

/-- C88: if the competition doesn't use a game id twice in a run, the count which goes with a failure is the number of times that this particular game has failed before
in the run, as documented. -/
theorem C88_error_count (C : Competition σ J X η V E) {mg : Option Int} {e : Env η} {d : Option (Nat × V)} {s : RM σ J X V E}
    (hs : RM.start C mg e d = some s) {w : Nat} (hw : 1 ≤ w) (steps : List (Step X (Env η)))
    {later earlier : List (Act σ J X E)} {j : J} {n : Nat} {stop retry : Bool} {c : σ}
    (h : ((Mp.start s w).run (source C) steps).src.acts = later ++ .failed j n stop retry c :: earlier)
    (hfresh : ((offers earlier).map C.gameId).Nodup) : n = timesFailed C.gameId (C.gameId j) earlier := by
  have h0 := C88_in_order C hs hw steps
  rw [h] at h0
  obtain ⟨⟨h1, h2⟩, h3⟩ := inOrder_suffix h0
  rw [h2]
  exact failures_eq h3 hfresh j (Or.inl h1)

/-- C88: with --max-games=k a run ends, whatever the competition does: the number of steps which do something is bounded, and until the run is over there is always a step
which can be made. -/
theorem C88_ends (C : Competition σ J X η V E) {k : Nat} {e : Env η} {d : Option (Nat × V)} {s : RM σ J X V E}
    (hs : RM.start C (some (k : Int)) e d = some s) {w : Nat} (hw : 1 ≤ w) (steps : List (Step X (Env η)))
    (hf : ((Mp.start s w).run (source C) steps).phase.fine) :
    (Effective (source C) (Mp.start s w) steps → steps.length ≤ w + 3 + 7 * k) ∧
    ∀ (e : Env η) (x : Option X), (∀ exc, ((Mp.start s w).run (source C) steps).phase ≠ .returned exc) →
      let m := (Mp.start s w : Mp (RM σ J X V E) J X (RExc E)).run (source C) steps
      m.mgr (source C) e ≠ m ∨ ∃ k, m.take k ≠ m ∨ m.finishJob k x ≠ m := by
  refine ⟨fun heff => ?_, fun e x hne => C41_no_deadlock (source C) s hw steps hne e x⟩
  have h1 := C41_terminates (source C) s w steps heff
  have h2 := (C88_record C hs hw steps hf).1
  have h3 := C88_max_games C hs hw steps rfl
  have h4 : ∀ l : List (Act σ J X E), starts l = (startedJobs l).length := by
    intro l
    induction l with
    | nil => rfl
    | cons a l ih => cases a <;> first | exact congrArg (· + 1) ih | exact ih
  rw [h4, h2] at h3
  omega

/-- C88: every run in progress, after any history of runs and crashes, is one started from the status file left by the last; so what is said above of runs from a
starting state holds of it. -/
theorem C88_history (C : Competition σ J X η V E) (events : List (Event X η)) (m : Mp (RM σ J X V E) J X (RExc E))
    (h : World.after C events = .up m) :
    ∃ before mg e w steps s, RM.start C mg e (World.after C before).disk = some s ∧ 1 ≤ w ∧ w < 1024 ∧
      (∃ after, events = before ++ .start mg e w :: after) ∧ m = (Mp.start s w).run (source C) steps := by
  induction events using List.reverseRecOn generalizing m with
  | nil => cases h
  | append_singleton events ev ih =>
    have hstep : World.after C (events ++ [ev]) = World.step C (World.after C events) ev := by
      unfold World.after; rw [List.foldl_append]; rfl
    rw [hstep] at h
    cases hw : World.after C events with
    | down d =>
      rw [hw] at h
      cases ev with
      | start mg e w =>
        simp only [World.step] at h
        cases hs : RM.start C mg e d with
        | none => rw [hs] at h; cases h
        | some s =>
          rw [hs] at h
          simp only at h
          split at h
          · rename_i hb
            injection h with h
            refine ⟨events, mg, e, w, [], s, ?_, hb.1, hb.2, ⟨[], rfl⟩, h.symm⟩
            rw [hw]; exact hs
          · cases h
      | step s => cases h
      | down => cases h
    | up m0 =>
      obtain ⟨before, mg, e, w, steps, s, h1, h2, h3, ⟨after, h4⟩, h5⟩ := ih m0 hw
      have hev : events ++ [ev] = before ++ .start mg e w :: (after ++ [ev]) := by rw [h4]; simp
      rw [hw] at h
      cases ev with
      | start mg' e' w' =>
        injection h with h
        exact ⟨before, mg, e, w, steps, s, h1, h2, h3, ⟨_, hev⟩, h ▸ h5⟩
      | step st =>
        injection h with h
        refine ⟨before, mg, e, w, steps ++ [st], s, h1, h2, h3, ⟨_, hev⟩, ?_⟩
        rw [← h, h5]; unfold Mp.run; rw [List.foldl_append]; rfl
      | down => cases h

/-- C88: a run starts with the competition in the state which it makes of the saved status (or its clean state, if there's no status file), with nothing in progress and
nothing to be retried. -/
theorem C88_start (C : Competition σ J X η V E) {mg : Option Int} {e : Env η} {d : Option (Nat × V)} {s : RM σ J X V E}
    (h : RM.start C mg e d = some s) (hd : e.display = false) :
    s.inProgress = [] ∧ s.toReplay = [] ∧ s.stopping = false ∧ s.disk = d ∧ s.acts = [] ∧
    (d = none → C.clean e.call = .ok s.comp ∧ s.voidGameCount = 0) ∧
    ∀ v saved, d = some (v, saved) → C.load e.call saved = .ok s.comp ∧ s.voidGameCount = v := by
  obtain ⟨c, c0, h1, h2, h3, h4, _⟩ := start_facts C h
  obtain rfl := h4 hd
  have hc : s.comp = c := by rw [h1]
  rw [hc]
  refine ⟨by rw [h1], by rw [h1], by rw [h1], by rw [h1], by rw [h1], h2, h3⟩

/-- C88: the same holds for runs without worker processes. -/
theorem C88_in_process (C : Competition σ J X η V E) {mg : Option Int} {e : Env η} {d : Option (Nat × V)} {s : RM σ J X V E}
    (hs : RM.start C mg e d = some s) (l : List (Env η × Env η × Option X)) :
    let a := (Ip.start s : Ip (RM σ J X V E) J X (RExc E)).run (source C) l
    AllInOrder C.gameId a.src.acts ∧
    (a.src.disk = statusFile C.save s.voidGameCount d a.src.acts ∨ a.src.disk = statusFile C.save s.voidGameCount d a.src.acts.tail) ∧
    (∀ k : Nat, mg = some (k : Int) → starts a.src.acts ≤ k) ∧
    (a.over = none → playing C.gameId a.src.acts = []) ∧
    (a.over = some none → playing C.gameId a.src.acts = [] ∧
      (¬ Stopped a.src.acts → a.src.acts.head? = some .noGame ∧ waiting C.gameId a.src.acts = [])) := by
  intro a
  obtain ⟨steps, h1, h2, h3, h4⟩ := C41_one_worker (source C) s l
  have q1 := C88_in_order C hs (Nat.le_refl 1) steps
  have q2 := C88_status_file C hs (Nat.le_refl 1) steps
  have h1' : a.src = ((Mp.start s 1).run (source C) steps).src := h1.symm
  rw [h1']
  refine ⟨q1, q2.2, fun k hk => C88_max_games C hs (Nat.le_refl 1) steps hk, fun ho => ?_, fun ho => C88_end C hs (Nat.le_refl 1) steps (h4 _ ho)⟩
  have hf : ((Mp.start s 1).run (source C) steps).phase.fine := by rw [(h3 ho).1]; trivial
  have hp := (C88_record C hs (Nat.le_refl 1) steps hf).2.2.1
  rw [(h3 ho).2] at hp
  exact hp.eq_nil

/-! ### Examples -/

/-- A competition with games 0, 1 and 2, in which a game is retried once and then the competition is stopped.  `id` gives their ids. -/
def exampleCompetition (id : Nat → Str) : Competition (Nat × Nat) Nat Nat Unit (Nat × Nat) Unit where
  gameId := id
  clean _ := .ok (0, 0)
  save s := s
  load _ s := .ok s
  getGame _ s := if s.1 < 3 then (.ok (some s.1), (s.1 + 1, s.2)) else (.ok none, s)
  processResult _ _ x s := (.ok (), (s.1, s.2 + x))
  processError _ _ n s := (.ok (n ≠ 0, n = 0), s)
  screenReport _ s := (.ok (), s)

def exampleEnv : Env Unit := ⟨false, 0, true, true, (), ()⟩

/-- Two workers: games 0 and 1 are started; game 0 fails and is retried. -/
def exampleSteps : List (Step Nat (Env Unit)) :=
  [.mgr exampleEnv, .mgr exampleEnv, .take 0, .take 1, .finishJob 0 none, .mgr exampleEnv, .mgr exampleEnv, .mgr exampleEnv, .take 0,
   .finishJob 1 (some 7), .mgr exampleEnv, .mgr exampleEnv, .finishJob 0 (some 5), .mgr exampleEnv, .mgr exampleEnv, .take 0,
   .mgr exampleEnv, .finishJob 0 (some 1), .mgr exampleEnv, .mgr exampleEnv, .mgr exampleEnv, .take 0, .take 1, .mgr exampleEnv]

/-- One worker: game 0 fails, is retried, and succeeds; then game 1 fails. -/
def exampleSteps2 : List (Step Nat (Env Unit)) :=
  [.mgr exampleEnv, .mgr exampleEnv, .take 0, .finishJob 0 none, .mgr exampleEnv, .mgr exampleEnv, .mgr exampleEnv, .take 0, .finishJob 0 (some 7), .mgr exampleEnv,
   .mgr exampleEnv, .mgr exampleEnv, .take 0, .finishJob 0 none, .mgr exampleEnv]

def exampleStart : RM (Nat × Nat) Nat Nat (Nat × Nat) Unit := ⟨(0, 0), 0, [], [], [], some 6, false, none, []⟩

/-- The run, with two workers, of games with ids of their own. -/
def exampleRun : Mp (RM (Nat × Nat) Nat Nat (Nat × Nat) Unit) Nat Nat (RExc Unit) :=
  (Mp.start exampleStart 2).run (source (exampleCompetition (Nat.toDigits 10))) exampleSteps

/-- The run, with one worker, of games which all have the id "g". -/
def exampleRun2 : Mp (RM (Nat × Nat) Nat Nat (Nat × Nat) Unit) Nat Nat (RExc Unit) :=
  (Mp.start exampleStart 1).run (source (exampleCompetition (fun _ => ['g']))) exampleSteps2

/-- C88: a run with a failure and a retry; and a competition which gives a game the id of a game which was played before, in which the count is not the number of times
the particular game has failed (the ringmaster doesn't forget the failures of a game which succeeds in the end). -/
theorem C88_witness :
    (RM.start (exampleCompetition (Nat.toDigits 10)) (some 6) exampleEnv none).isSome ∧
    exampleRun.phase = .returned none ∧ exampleRun.src.disk = some (1, (3, 13)) ∧
    exampleRun.src.acts.reverse = [.offered 0, .offered 1, .failed 0 0 false true (2, 0), .again 0, .result 1 7 (2, 7), .offered 2, .result 0 5 (3, 12), .noGame,
      .result 2 1 (3, 13), .noGame] ∧
    exampleRun2.src.acts.reverse = [.offered 0, .failed 0 0 false true (1, 0), .again 0, .result 0 7 (1, 7), .offered 1, .failed 1 1 true false (2, 7)] := by
  decide +kernel

end Gomill.Ring
