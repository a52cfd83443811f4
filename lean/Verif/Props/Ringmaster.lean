import Verif.Lemmas.RingmasterErrors
import Verif.Props.Score
import Verif.Props.Jobs
/-
C36, C45, C46, C47: tournaments run by the ringmaster with the multiprocessing job manager: gomill/ringmasters.py,
gomill/tournaments.py, gomill/job_manager.py, gomill/competition_schedulers.py together.

`World.after events` is the system after any sequence of events, starting with no status file: runs being started (with any
control files, and any number of workers), steps of the managing process and of the worker processes in any
interleaving, with any game outcomes, and runs ending or crashing at any point.  `saved m` is the results for matchup
`m` in the status file.
-/
namespace Gomill.Tourn
open Py Sched SchedSpec Jobs

/-- The games made by the program satisfy the conditions of `Outcome`. -/
theorem outcome_of_made {fmt : Rat → Str} {r : Res} (h : (∃ s, Res.fromGameScore fmt s = .ok r) ∨ ∃ g, Res.fromUnscoredGame g = .ok r)
    (b w : Option Rat) : ∃ x : Outcome, x.res = r ∧ x.cpuB = b ∧ x.cpuW = w := by
  have h1 : r.isJigo = decide (r.sgfResult = ['0']) := by
    rcases h with ⟨s, h⟩ | ⟨g, h⟩
    · exact fromScore_jigo h
    · exact fromUnscored_jigo h
  have h2 : r.isJigo = true → r.winningColour = none := by
    rcases h with ⟨s, h⟩ | ⟨g, h⟩
    · intro hj
      unfold Res.fromGameScore at h
      revert h
      generalize s.winner = w
      generalize s.margin = m
      intro h
      unfold Res.fromScore at h
      cases m with
      | none => cases h; simp [Res.withWinner] at hj
      | some m =>
        simp only at h
        split at h
        · cases h
        · cases w with
          | none =>
            simp only at h
            split at h
            · cases h; rfl
            · cases h
          | some c =>
            simp only at h
            split at h
            · cases h
            · split at h
              · cases h
              · cases h; simp [Res.withWinner] at hj
    · intro hj
      unfold Res.fromUnscoredGame at h
      repeat' split at h
      all_goals first | (cases h; simp [Res.withWinner] at hj) | cases h
  exact ⟨⟨r, b, w, h1, h2⟩, rfl, rfl, rfl⟩

theorem winv (events : List Event) : WInv noParams (World.after events) :=
  winv_after events (fun ev _ => ok_noParams ev)

theorem records_of_disk {P : Params} {d : Option (Nat × Saved)} (h : DiskOk P d) (m : Str) :
    ∃ ns : List Nat, ns.Nodup ∧ List.Forall₂ (Records m) (savedIn d m) ns ∧ ∀ c, P.limit m = some c → ∀ n ∈ ns, n < c := by
  cases d with
  | none => exact ⟨[], by simp, .nil, by simp⟩
  | some p =>
    obtain ⟨v, s⟩ := p
    obtain ⟨⟨l, hl⟩, _⟩ := h v s rfl
    refine ⟨_, List.nodup_reverse.2 (hl.ginv.inv m).nodupF, hl.recs m, ?_⟩
    intro c hc n hn
    have h1 := hl.bound m c hc
    have h2 := ((hl.ginv.inv m).cover n).2 (Or.inr (Or.inr (List.mem_reverse.1 hn)))
    omega

/-- C36: whatever has happened, the results saved for a matchup are those of distinct games of the matchup. -/
theorem C36_distinct (events : List Event) (m : Str) :
    ∃ ns : List Nat, ns.Nodup ∧ List.Forall₂ (Records m) ((World.after events).saved m) ns := by
  obtain ⟨ns, h1, h2, _⟩ := records_of_disk (winv events).disk m
  exact ⟨ns, h1, h2⟩

/-- C36: so no two saved results have the same game id, even from different matchups. -/
theorem C36_distinct_ids (events : List Event) (m m' : Str) (i i' : Nat) (r r' : GameResult)
    (h : ((World.after events).saved m)[i]? = some r) (h' : ((World.after events).saved m')[i']? = some r')
    (hid : r.gameId = r'.gameId) : m = m' ∧ i = i' := by
  obtain ⟨ns, n1, n2⟩ := C36_distinct events m
  obtain ⟨ns', n1', n2'⟩ := C36_distinct events m'
  have key : ∀ {m : Str} {l : List GameResult} {ns : List Nat}, List.Forall₂ (Records m) l ns → ∀ (i : Nat) (r : GameResult), l[i]? = some r →
      ∃ n, ns[i]? = some n ∧ Records m r n := by
    intro m l ns hf
    induction hf with
    | nil => intro i r h; simp at h
    | cons hx _ ih =>
      intro i r h
      cases i with
      | zero => simp at h; subst h; exact ⟨_, rfl, hx⟩
      | succ i => simpa using ih i r (by simpa using h)
  obtain ⟨n, hn, gid, hg1, hg2⟩ := key n2 i r h
  obtain ⟨n', hn', gid', hg1', hg2'⟩ := key n2' i' r' h'
  have : gid = gid' := by rw [hid, hg1'] at hg1; exact (Option.some.inj hg1).symm
  subst this
  obtain ⟨rfl, rfl⟩ := gameIdOf_inj hg2 hg2'
  refine ⟨rfl, ?_⟩
  have he : ns = ns' := by
    have : ∀ {l : List GameResult} {ns ns' : List Nat}, List.Forall₂ (Records m) l ns → List.Forall₂ (Records m) l ns' → ns = ns' := by
      intro l ns ns' h1
      induction h1 generalizing ns' with
      | nil => intro h2; cases h2; rfl
      | cons hx _ ih =>
        intro h2
        cases h2 with
        | cons hy h2 =>
          obtain ⟨g, e1, e2⟩ := hx
          obtain ⟨g', e1', e2'⟩ := hy
          have : g = g' := by rw [e1'] at e1; exact (Option.some.inj e1).symm
          subst this
          rw [(gameIdOf_inj e2 e2').2, ih h2]
    exact this n2 n2'
  subst he
  obtain ⟨a1, a2⟩ := List.getElem?_eq_some_iff.1 hn
  obtain ⟨b1, b2⟩ := List.getElem?_eq_some_iff.1 hn'
  exact (List.Nodup.getElem_inj_iff n1).1 (a2.trans b2.symm)

/-- C36: what one event does to the status file: when the managing process takes a successful game's response from the
queue (and the disk works), exactly that game's result is added to exactly that game's matchup; nothing else ever
changes the saved results. -/
theorem C36_recorded (events : List Event) (ev : Event) (k : Str) :
    (World.after (events ++ [ev])).saved k = (World.after events).saved k ++
      (match (World.after events).records ev with
      | some (j, x) => if k = j.matchupId then [j.result x] else []
      | none => []) := by
  have : World.after (events ++ [ev]) = (World.after events).step ev := by
    unfold World.after; rw [List.foldl_append]; rfl
  rw [this]
  exact ((winv events).step (ok_noParams ev)).2 k

/-- C36: no saved result is ever lost or changed, whatever happens later (crashes and resumes included). -/
theorem C36_not_lost (events more : List Event) (k : Str) :
    (World.after events).saved k <+: (World.after (events ++ more)).saved k := by
  induction more using List.reverseRecOn with
  | nil => simp
  | append_singleton more ev ih =>
    rw [← List.append_assoc, C36_recorded]
    exact ih.trans (List.prefix_append _ _)

theorem got_step {m : Mp RM Job Outcome RExc} {s : Step Outcome Env} {j : Job} (h : (m.step source s).log = .got j :: m.log) :
    m.phase = .looping ∧ (m.step source s).phase = .looping ∧ (m.step source s).inFlight.Perm (j :: m.inFlight) := by
  have hne : ∀ (l : List (Call Job Outcome)) (a : Call Job Outcome), l ≠ a :: l := by
    intro l a hc
    have := congrArg List.length hc
    simp at this
  have hcons : ∀ (l : List (Call Job Outcome)) (a b : Call Job Outcome), a ≠ b → a :: l ≠ b :: l := by
    intro l a b hab hc
    simp at hc; exact hab hc
  have hag : ∀ m : Mp RM Job Outcome RExc, m.afterGet.log = m.log := by
    intro m; unfold Mp.afterGet; split <;> rfl
  cases s with
  | take k =>
    exfalso
    have : (m.take k).log = m.log := by unfold Mp.take; split <;> rfl
    have h' : (m.take k).log = .got j :: m.log := h
    rw [this] at h'
    exact hne _ _ h'
  | finishJob k x =>
    exfalso
    have h' : (m.finishJob k x).log = .got j :: m.log := h
    unfold Mp.finishJob at h'
    split at h'
    · exact hcons _ _ _ (by simp) h'
    · exact hne _ _ h'
  | mgr e =>
    have h' : (m.mgr source e).log = .got j :: m.log := h
    show m.phase = .looping ∧ (m.mgr source e).phase = .looping ∧ (m.mgr source e).inFlight.Perm (j :: m.inFlight)
    unfold Mp.mgr at h' ⊢
    cases hph : m.phase with
    | looping =>
      rw [hph] at h'
      simp only at h' ⊢
      refine ⟨trivial, ?_⟩
      unfold Mp.topOfLoop at h' ⊢
      split at h'
      · rename_i hlt
        rw [if_pos hlt]
        rcases hg : source.getJob e m.src with ⟨x | _ | j', s⟩
        · rw [hg] at h'
          exact absurd h' (hne _ _)
        · rw [hg] at h'
          simp only [hag] at h'
          exact absurd h' (hcons _ _ _ (by simp))
        · rw [hg] at h'
          simp only [List.cons.injEq, Call.got.injEq, and_true] at h'
          subst h'
          refine ⟨hph, ?_⟩
          simp only [Mp.inFlight, Mp.queued, Mp.running, List.filterMap_append]
          simp only [List.filterMap_cons, id, List.filterMap_nil]
          rw [List.append_assoc, List.append_assoc, List.append_assoc]
          exact List.perm_middle
      · exact absurd (hag m ▸ h') (hne _ _)
    | waiting =>
      rw [hph] at h'
      simp only at h'
      have hel : ∀ (m1 : Mp RM Job Outcome RExc) r, (m1.endOfLoop r).log = m1.log := by
        intro m1 r; cases r <;> rfl
      unfold Mp.takeResponse at h'
      split at h'
      · exact absurd h' (hne _ _)
      · rw [hel] at h'; exact absurd h' (hcons _ _ _ (by simp))
      · rw [hel] at h'; exact absurd h' (hcons _ _ _ (by simp))
    | finishing exc =>
      rw [hph] at h'
      simp only at h'
      split at h'
      · exact absurd h' (hne _ _)
      · exact absurd h' (hne _ _)
    | returned exc =>
      rw [hph] at h'
      simp only at h'
      exact absurd h' (hne _ _)

/-- C36: a game whose result is saved is never played again, and no game is being played twice at once: when a job is
handed out, no saved result and no job in flight has its game id. -/
theorem C36_not_replayed (events : List Event) (m : Mp RM Job Outcome RExc) (hm : World.after events = .up m)
    (s : Step Outcome Env) (j : Job) (hg : (m.step source s).log = .got j :: m.log) :
    (∀ k, ∀ r ∈ (World.after events).saved k, r.gameId ≠ some j.gameId) ∧ ∀ j' ∈ m.inFlight, j'.gameId ≠ j.gameId := by
  have hw := winv events
  rw [hm] at hw ⊢
  have hu : UpInv noParams m := hw
  obtain ⟨hph, hph', hperm⟩ := got_step hg
  have hr := (hu.step s).1.fine (by rw [hph']; trivial)
  have hr := (preserves noParams).perm hr hperm
  have hc : Core noParams (m.step source s).src.t (j :: (m.inFlight ++ (m.step source s).src.toReplay)) (m.step source s).src.stopping :=
    hr.core.perm (hr.flight.symm.append_right _)
  refine ⟨?_, ?_⟩
  · intro k r hrk hid
    have hnone : stepRecords m s = none := by
      cases s <;> simp [stepRecords, hph]
    have hsv := (hu.step s).2 k
    rw [hnone] at hsv
    simp only [List.append_nil] at hsv
    have hrk' : r ∈ savedIn m.src.disk k := hrk
    rw [← hsv, hr.disk k] at hrk'
    obtain ⟨l, hl⟩ := hc.tinv
    have hrec := hl.recs k
    obtain ⟨n, hn, gid, e1, e2⟩ : ∃ n ∈ (fixedTokens (proj k l)).reverse, Records k r n := by
      revert hrec hrk'
      generalize (m.step source s).src.t.results.get k = rs
      generalize (fixedTokens (proj k l)).reverse = ns
      intro hrk' hrec
      induction hrec with
      | nil => simp at hrk'
      | cons hx _ ih =>
        rcases List.mem_cons.1 hrk' with rfl | h
        · exact ⟨_, by simp, hx⟩
        · obtain ⟨n, hn, h⟩ := ih h
          exact ⟨n, List.mem_cons_of_mem _ hn, h⟩
    obtain ⟨⟨mu, _, hj⟩, ho⟩ := hc.jobs j (by simp)
    have : gid = j.gameId := by rw [hid] at e1; exact (Option.some.inj e1).symm
    subst this
    obtain ⟨rfl, rfl⟩ := gameIdOf_inj e2 (job_gameId hj)
    exact (hl.ginv.inv _).disOF _ ho (List.mem_reverse.1 hn)
  · intro j' hj' he
    exact hc.apart.fresh j' (List.mem_append_left _ hj') he

/-- C36: if a run finishes without an error or a request to stop, then it's complete: for every matchup in its control file
there's a limit on the number of games, and at least that many have been saved. -/
theorem C36_complete (events : List Event) (m : Mp RM Job Outcome RExc) (hm : World.after events = .up m)
    (hret : m.phase = .returned none) (hstop : m.src.stopping = false) :
    ∀ mu ∈ m.src.t.comp.matchups, ∃ c, mu.numberOfGames = some c ∧ c ≤ ((World.after events).saved mu.id).length := by
  have hw := winv events
  rw [hm] at hw ⊢
  have hu : UpInv noParams m := hw
  have hr := hu.fine (by rw [hret]; trivial)
  have hp := hu.minv.phase
  rw [hret] at hp
  have hfl : m.inFlight = [] := (hp.2.2.2 rfl).1
  obtain ⟨hrep, hav⟩ := hu.quiet (Or.inr hret) hstop
  have hin : m.src.inProgress = [] := by
    have := hr.flight; rw [hfl] at this; exact List.nil_perm.1 this
  intro mu hmu
  obtain ⟨e, he, hcode, hlim⟩ := hr.core.covered mu hmu
  have hne := hav e he
  obtain ⟨l, hl⟩ := hr.core.tinv
  have halloc : allocOf m.src.t.scheduler mu.id = e.alloc := by
    rw [← hcode]; exact allocOf_of_mem hl.ginv.nodup he
  have hout : e.alloc.outstanding = [] := by
    rw [← halloc, List.eq_nil_iff_forall_not_mem]
    intro n hn
    have := hr.core.out hstop _ _ hn
    rw [hin, hrep] at this
    simp at this
  have hinv := hl.ginv.inv mu.id
  rw [halloc] at hinv
  unfold GEntry.available at hne
  rw [hlim] at hne
  cases hng : mu.numberOfGames with
  | none => rw [hng] at hne; simp at hne
  | some c =>
    refine ⟨c, rfl, ?_⟩
    rw [hng] at hne
    simp only [decide_eq_false_iff_not, not_lt] at hne
    rw [hinv.issuedN, hout] at hne
    have hlen := (hl.recs mu.id).length_eq
    rw [List.length_reverse] at hlen
    show c ≤ ((savedIn m.src.disk mu.id).length : Int)
    rw [hr.disk, hlen]
    simpa using hne

/-- C36: if the control files have never given a matchup more than `c` games, its saved results are those of distinct games
numbered below `c`, so there are at most `c` of them; and once there are `c`, each of those games is there once. -/
theorem C36_numbers (events : List Event) (id : Str) (c : Nat)
    (hlim : ∀ ctl mg disp w, Event.start ctl mg disp w ∈ events → ∀ comp, ctl.initialise = .ok comp →
      ∀ mu ∈ comp.matchups, mu.id = id → ∃ k, mu.numberOfGames = some k ∧ k ≤ c) :
    ∃ ns : List Nat, ns.Nodup ∧ (∀ n ∈ ns, n < c) ∧ List.Forall₂ (Records id) ((World.after events).saved id) ns ∧
      ((World.after events).saved id).length ≤ c ∧
      (((World.after events).saved id).length = c → ns.Perm (List.range c)) := by
  let P : Params := ⟨fun m => if m = id then some c else none, none⟩
  have hw : WInv P (World.after events) := by
    refine winv_after events ?_
    intro ev hev
    cases ev with
    | start ctl mg disp w =>
      intro comp hc
      refine ⟨?_, fun c' h => by simp [P] at h⟩
      intro mu hmu n hn
      simp only [P] at hn
      split at hn
      · rename_i hid
        simp only [Option.some.injEq] at hn; subst hn
        exact hlim ctl mg disp w hev comp hc mu hmu hid
      · simp at hn
    | step s => trivial
    | down => trivial
  obtain ⟨ns, h1, h2, h3⟩ := records_of_disk hw.disk id
  have h3' : ∀ n ∈ ns, n < c := h3 c (by simp [P])
  have hsub : ns.Subperm (List.range c) := List.subperm_of_subset h1 (fun n hn => List.mem_range.2 (h3' n hn))
  have hlen : ((World.after events).saved id).length = ns.length := h2.length_eq
  refine ⟨ns, h1, h3', h2, ?_, ?_⟩
  · have := hsub.length_le; rw [List.length_range] at this; omega
  · intro hc
    exact hsub.perm_of_length_le (by rw [List.length_range]; omega)

/-- C36: the results saved for a matchup are all between the same two players, and who won is recorded consistently. -/
theorem C36_players (events : List Event) (m : Str) :
    ∃ p q, p ≠ q ∧ ∀ r ∈ (World.after events).saved m, Between p q r := by
  have h := (winv events).disk
  unfold World.saved
  cases hd : (World.after events).disk with
  | none => exact ⟨[], ['a'], by simp, by simp [savedIn]⟩
  | some p =>
    obtain ⟨v, s⟩ := p
    rw [hd] at h
    obtain ⟨⟨l, hl⟩, _⟩ := h v s rfl
    exact hl.between m

/-- C36: the only exception the ringmaster's job methods can raise in a run is a failure to write the status file: no
internal error (duplicate game id, KeyError...) is reachable. -/
theorem C36_no_internal_error (events : List Event) (m : Mp RM Job Outcome RExc) (hm : World.after events = .up m) (x : RExc)
    (hx : m.phase = .finishing (some x) ∨ m.phase = .returned (some x)) : x = .statusWrite := by
  have hw := winv events
  rw [hm] at hw
  exact UpInv.raised hw x hx

/-- C36: a competition can always be resumed with the same control file: if all the runs so far have used a control file,
the status file is accepted by a new run with that control file. -/
theorem C36_resumable (events : List Event) (ctl : Control) (comp : Comp) (hc : ctl.initialise = .ok comp)
    (hsame : ∀ ctl' mg disp w, Event.start ctl' mg disp w ∈ events → ctl' = ctl)
    (d : Option (Nat × Saved)) (hd : World.after events = .down d) (mg : Option Int) (disp : Bool) (w : Nat) (hw : 1 ≤ w ∧ w < 1024) :
    ∃ s, RM.start comp mg disp d = .ok s ∧ World.after (events ++ [.start ctl mg disp w]) = .up (Mp.start s w) := by
  let P : Params := ⟨fun _ => none, some comp⟩
  have hwi : WInv P (World.after events) := by
    refine winv_after events ?_
    intro ev hev
    cases ev with
    | start ctl' mg disp w =>
      intro comp' hc'
      rw [hsame ctl' mg disp w hev, hc] at hc'
      simp only [Except.ok.injEq] at hc'
      exact ⟨fun _ _ _ h => by simp [P] at h, fun c' h => by simp only [P, Option.some.injEq] at h; rw [← hc', h]⟩
    | step s => trivial
    | down => trivial
  rw [hd] at hwi
  have hs : ∃ s, RM.start comp mg disp d = .ok s := by
    unfold RM.start
    cases d with
    | none => exact ⟨_, rfl⟩
    | some p =>
      obtain ⟨v, saved⟩ := p
      obtain ⟨t, ht⟩ := load_same (P := P) (c := comp) rfl hwi
      simp only [ht]
      exact ⟨_, rfl⟩
  obtain ⟨s, hs⟩ := hs
  refine ⟨s, hs, ?_⟩
  have : World.after (events ++ [.start ctl mg disp w]) = (World.after events).step (.start ctl mg disp w) := by
    unfold World.after; rw [List.foldl_append]; rfl
  rw [this, hd]
  simp only [World.step, hc, hs]
  rw [if_pos hw]

/-! ### One run -/

theorem up_run (m : Mp RM Job Outcome RExc) (steps : List (Step Outcome Env)) :
    (steps.map Event.step).foldl World.step (.up m) = .up (m.run source steps) := by
  induction steps generalizing m with
  | nil => rfl
  | cons s l ih => exact ih (m.step source s)

/-- A run, from its start. -/
theorem run_facts {events : List Event} {ctl : Control} {mg : Option Int} {disp : Bool} {w : Nat} {steps : List (Step Outcome Env)}
    {d : Option (Nat × Saved)} {m : Mp RM Job Outcome RExc} (hd : World.after events = .down d)
    (hm : World.after (events ++ .start ctl mg disp w :: steps.map .step) = .up m) :
    ∃ comp s, ctl.initialise = .ok comp ∧ RM.start comp mg disp d = .ok s ∧ 1 ≤ w ∧ m = (Mp.start s w).run source steps := by
  have h1 : World.after (events ++ .start ctl mg disp w :: steps.map .step)
      = (steps.map Event.step).foldl World.step ((World.down d).step (.start ctl mg disp w)) := by
    unfold World.after at hd ⊢
    rw [List.foldl_append, hd]; rfl
  rw [h1] at hm
  have hdown : ∀ (l : List (Step Outcome Env)) d, (l.map Event.step).foldl World.step (.down d) = .down d := by
    intro l
    induction l with
    | nil => intro d; rfl
    | cons s l ih => intro d; exact ih d
  simp only [World.step] at hm
  cases hc : ctl.initialise with
  | error e => rw [hc] at hm; simp only at hm; rw [hdown] at hm; simp at hm
  | ok comp =>
    rw [hc] at hm
    simp only at hm
    cases hs : RM.start comp mg disp d with
    | error e => rw [hs] at hm; simp only at hm; rw [hdown] at hm; simp at hm
    | ok s =>
      rw [hs] at hm
      simp only at hm
      split at hm
      · rename_i hw
        rw [up_run] at hm
        simp only [World.up.injEq] at hm
        exact ⟨comp, s, rfl, hs, hw.1, hm.symm⟩
      · rw [hdown] at hm; simp at hm

/-- C45: a run with --max-games=k starts at most k games, whatever happens (replays of failed games included). -/
theorem C45_max_games (events : List Event) (d : Option (Nat × Saved)) (hd : World.after events = .down d) (ctl : Control) (k : Nat)
    (disp : Bool) (w : Nat) (steps : List (Step Outcome Env)) (m : Mp RM Job Outcome RExc)
    (hm : World.after (events ++ .start ctl (some k) disp w :: steps.map .step) = .up m) :
    (gotJobs m.log).length ≤ k := by
  obtain ⟨comp, s, _, hs, _, rfl⟩ := run_facts hd hm
  obtain ⟨_, _, _, _, _, hmax⟩ := start_facts hs
  have := got_bound (max_preserves k) (max_measures k) (src := s) ⟨k, hmax, le_refl _⟩ w steps (E := RExc)
  refine this.trans ?_
  unfold maxLeft
  rw [hmax]; simp

/-- C46: if the control file limits the number of games of every matchup, a run hands out at most two jobs for each game
which is still to be played when it starts, however many games fail. -/
theorem C46_bound (events : List Event) (d : Option (Nat × Saved)) (hd : World.after events = .down d) (ctl : Control) (mg : Option Int)
    (disp : Bool) (w : Nat) (steps : List (Step Outcome Env)) (m : Mp RM Job Outcome RExc)
    (hm : World.after (events ++ .start ctl mg disp w :: steps.map .step) = .up m) (comp : Comp) (hc : ctl.initialise = .ok comp)
    (hlim : ∀ mu ∈ comp.matchups, mu.numberOfGames ≠ none) :
    (gotJobs m.log).length ≤
      (comp.matchups.map (fun mu => 2 * (mu.numberOfGames.getD 0 - (((World.after events).saved mu.id).length : Int)).toNat)).sum := by
  obtain ⟨comp', s, hc', hs, _, rfl⟩ := run_facts hd hm
  rw [hc] at hc'
  simp only [Except.ok.injEq] at hc'
  subst hc'
  have hw := winv events
  rw [hd] at hw ⊢
  have hf : noParams.Fits comp := ok_noParams (.start ctl mg disp w) comp hc
  obtain ⟨h1, h2⟩ := linv_start (goodComp hc) hf hw hs hlim
  exact (got_bound (limited_preserves noParams) (limited_measures noParams) h1 w steps (E := RExc)).trans h2

/-- C46: so such a run ends: in any interleaving, the number of steps which do something is bounded (in terms of the number of
games to play), and until the run is over there is always a step which can be made. -/
theorem C46_ends (events : List Event) (d : Option (Nat × Saved)) (hd : World.after events = .down d) (ctl : Control) (mg : Option Int)
    (disp : Bool) (w : Nat) (steps : List (Step Outcome Env)) (m : Mp RM Job Outcome RExc)
    (hm : World.after (events ++ .start ctl mg disp w :: steps.map .step) = .up m) (comp : Comp) (hc : ctl.initialise = .ok comp)
    (hlim : ∀ mu ∈ comp.matchups, mu.numberOfGames ≠ none) :
    (∀ m0, World.after (events ++ [.start ctl mg disp w]) = .up m0 → Effective source m0 steps →
      steps.length ≤ w + 3 + 14 *
        (comp.matchups.map (fun mu => (mu.numberOfGames.getD 0 - (((World.after events).saved mu.id).length : Int)).toNat)).sum) ∧
    ∀ (e : Env) (x : Option Outcome), (∀ exc, m.phase ≠ .returned exc) →
      m.mgr source e ≠ m ∨ ∃ k, m.take k ≠ m ∨ m.finishJob k x ≠ m := by
  have hb := C46_bound events d hd ctl mg disp w steps m hm comp hc hlim
  obtain ⟨comp', s, hc', hs, hw, rfl⟩ := run_facts hd hm
  refine ⟨?_, ?_⟩
  · intro m0 hm0 heff
    obtain ⟨comp1, s1, hc1, hs1, _, h1⟩ := run_facts (steps := []) hd hm0
    rw [hc] at hc' hc1
    simp only [Except.ok.injEq] at hc' hc1
    subst hc' hc1
    rw [hs] at hs1
    simp only [Except.ok.injEq] at hs1
    subst hs1
    have h1' : m0 = Mp.start s w := h1
    rw [h1'] at heff
    have ht := C41_terminates source s w steps heff
    have hsum : ∀ (l : List Matchup) (f : Matchup → Nat), (l.map (fun mu => 2 * f mu)).sum = 2 * (l.map f).sum := by
      intro l f
      induction l with
      | nil => rfl
      | cons a l ih => simp only [List.map_cons, List.sum_cons, ih]; omega
    rw [hsum comp.matchups (fun mu => (mu.numberOfGames.getD 0 - (((World.after events).saved mu.id).length : Int)).toNat)] at hb
    omega
  · intro e x hne
    exact C41_no_deadlock source s hw steps hne e x

/-! ### Failed games -/

def WTold : World → Prop
  | .down _ => True
  | .up m => m.phase.fine → Told noParams m.src m.inFlight m.log

theorem wtold (events : List Event) : WTold (World.after events) := by
  induction events using List.reverseRecOn with
  | nil => trivial
  | append_singleton events ev ih =>
    have hstep : World.after (events ++ [ev]) = (World.after events).step ev := by
      unfold World.after; rw [List.foldl_append]; rfl
    have hw := winv events
    rw [hstep]
    cases hwe : World.after events with
    | up m =>
      rw [hwe] at ih
      cases ev with
      | step s => exact preservedLog_step (told_preserves noParams) s ih
      | start c mg disp n => exact ih
      | down => trivial
    | down d =>
      rw [hwe] at hw
      cases ev with
      | step s => trivial
      | down => trivial
      | start c mg disp n =>
        simp only [World.step]
        cases hc : c.initialise with
        | error e => trivial
        | ok comp =>
          simp only
          cases hs : RM.start comp mg disp d with
          | error e => trivial
          | ok s =>
            simp only
            split
            · intro _
              obtain ⟨h1, _⟩ := rinv_start (goodComp hc) (ok_noParams (.start c mg disp n) comp hc) hw hs
              obtain ⟨f1, _⟩ := start_facts hs
              have hp : s.t.probationary = [] := by
                unfold RM.start RM.updateDisplay at hs
                split at hs
                · simp only [Except.ok.injEq] at hs
                  rw [← hs]; split <;> rfl
                · split at hs
                  · simp at hs
                  · rename_i t ht
                    have : t.probationary = [] := by
                      unfold State.load at ht
                      repeat' split at ht
                      all_goals first | (simp only [Except.ok.injEq] at ht; rw [← ht]) | (exact absurd ht (by simp))
                    simp only [Except.ok.injEq] at hs
                    rw [← hs]; split <;> exact this
              have hfl : (Mp.start s n : Mp RM Job Outcome RExc).inFlight = [] := by
                have h1 : (List.replicate n (Worker.idle : Worker Job)).filterMap Worker.job? = [] := by
                  rw [List.filterMap_replicate_of_none rfl]
                simp [Mp.inFlight, Mp.queued, Mp.running, Mp.start, h1]
              refine ⟨by rw [hfl]; exact h1, ?_, ?_, ?_⟩
              · show s.t.probationary.Nodup; rw [hp]; exact List.nodup_nil
              · intro m
                show (m ∈ s.t.working ∧ m ∉ s.t.probationary) ↔ lastSucceeded m [] = true
                rw [f1]; simp [lastSucceeded]
              · intro _ j hj
                exact absurd hj (by simp [Mp.start, madeGood])
            · trivial

theorem stopping_preserves : Preserves source (fun s (_ : List Job) => s.stopping = true) where
  perm := fun h _ => h
  none := by
    intro e s s' fl h hg
    have hg' : RM.getJob e s = (.ok none, s') := hg
    unfold RM.getJob RM.getJob1 at hg'
    simp only [h, if_true, Prod.mk.injEq] at hg'
    rw [← hg'.2]
    unfold RM.updateDisplay; split <;> exact h
  some := by
    intro e s s' fl j h hg
    have hg' : RM.getJob e s = (.ok (some j), s') := hg
    unfold RM.getJob RM.getJob1 at hg'
    simp [h] at hg'
  response := by
    intro e s s' fl j x u h hg
    rw [(processResponse_told hg).2.2.1]; exact h
  error := by
    intro e s s' fl j u h hg
    obtain ⟨_, h2⟩ := processError_told hg
    split at h2
    · rw [h2.2.1]; exact h
    · exact h2.2.1

theorem stopping_measures : Measures source (fun s (_ : List Job) => s.stopping = true) (fun _ => 0) where
  none := fun _ _ => le_refl _
  some := by
    intro e s s' fl j h hg
    have hg' : RM.getJob e s = (.ok (some j), s') := hg
    unfold RM.getJob RM.getJob1 at hg'
    simp [h] at hg'
  response := fun _ _ => le_refl _
  error := fun _ _ => le_refl _

theorem error_step {m : Mp RM Job Outcome RExc} {j : Job} {rest : List (Job × Option Outcome)} (hph : m.phase = .waiting)
    (hq : m.respQ = (j, none) :: rest) (e : Env) :
    m.step source (.mgr e) = Mp.endOfLoop { m with respQ := rest, src := (RM.processError e j m.src).2, log := .error j :: m.log }
      (RM.processError e j m.src).1 := by
  show m.mgr source e = _
  unfold Mp.mgr; rw [hph]
  simp only
  unfold Mp.takeResponse; rw [hq]; rfl

/-- C47: when a game fails, and the matchup's last finished game in this run didn't succeed (or there wasn't one), the
competition is stopped: no more games are started in the run. -/
theorem C47_stops (events : List Event) (m : Mp RM Job Outcome RExc) (hm : World.after events = .up m) (j : Job)
    (rest : List (Job × Option Outcome)) (hph : m.phase = .waiting) (hq : m.respQ = (j, none) :: rest)
    (hl : lastSucceeded j.matchupId m.log = false) (e : Env) (steps : List (Step Outcome Env)) :
    (gotJobs ((m.step source (.mgr e)).run source steps).log).length = (gotJobs m.log).length := by
  have ht := wtold events
  rw [hm] at ht
  have ht : Told noParams m.src m.inFlight m.log := ht (by rw [hph]; trivial)
  rw [error_step hph hq]
  have hmono : ∀ (steps : List (Step Outcome Env)) (m : Mp RM Job Outcome RExc),
      (gotJobs m.log).length ≤ (gotJobs (m.run source steps).log).length := by
    intro steps
    induction steps with
    | nil => intro m; exact le_refl _
    | cons s l ih =>
      intro m
      refine le_trans ?_ (ih (m.step source s))
      rcases step_progress source m s with h | ⟨_, h⟩ | ⟨_, h⟩
      · rw [h]
      · rw [h]
      · rw [h]; exact Nat.le_succ _
  set m1 := Mp.endOfLoop { m with respQ := rest, src := (RM.processError e j m.src).2, log := .error j :: m.log }
      (RM.processError e j m.src).1 with hm1
  have hgot : (gotJobs m1.log).length = (gotJobs m.log).length := by
    rw [hm1]
    cases (RM.processError e j m.src).1 <;> rfl
  refine le_antisymm ?_ (hgot ▸ hmono steps m1)
  have hfine : m1.phase.fine → m1.src.stopping = true := by
    intro hf
    rw [hm1] at hf ⊢
    rcases hr : RM.processError e j m.src with ⟨x | u, s'⟩
    · rw [hr] at hf; exact absurd hf (by simp [Mp.endOfLoop, Mp.beginFinish, Phase.fine])
    · obtain ⟨_, h2⟩ := processError_told hr
      have : ¬ (j.matchupId ∈ m.src.t.working ∧ j.matchupId ∉ m.src.t.probationary) := by
        rw [ht.trust, hl]; simp
      rw [if_neg this] at h2
      exact h2.2.1
  exact (spent_run stopping_preserves stopping_measures steps (m := m1) (N := (gotJobs m.log).length) hfine
    ⟨hgot.le, fun _ => by rw [hgot]; exact le_refl _⟩).1

/-- C47: when a game fails but the matchup's last finished game in this run succeeded, the failure doesn't stop the
competition. -/
theorem C47_continues (events : List Event) (m : Mp RM Job Outcome RExc) (hm : World.after events = .up m) (j : Job)
    (rest : List (Job × Option Outcome)) (hph : m.phase = .waiting) (hq : m.respQ = (j, none) :: rest)
    (hl : lastSucceeded j.matchupId m.log = true) (e : Env) (hd : e.diskOk = true) :
    (m.step source (.mgr e)).phase = .looping ∧ (m.step source (.mgr e)).src.stopping = m.src.stopping := by
  have ht := wtold events
  rw [hm] at ht
  have ht : Told noParams m.src m.inFlight m.log := ht (by rw [hph]; trivial)
  rw [error_step hph hq]
  have hr' : RInv noParams m.src (j :: (m.queued ++ m.running ++ rest.map Prod.fst)) := by
    refine (preserves noParams).perm ht.rinv ?_
    unfold Mp.inFlight; rw [hq]; exact List.perm_middle
  rcases hr : RM.processError e j m.src with ⟨x | u, s'⟩
  · exfalso
    rcases hr'.processError e with ⟨h1, _⟩ | ⟨h1, _⟩
    · rw [hr] at h1; simp at h1
    · unfold RM.processError RM.writeStatus at h1
      simp only [hd, if_true] at h1
      split at h1 <;> simp at h1
  · obtain ⟨_, h2⟩ := processError_told hr
    rw [if_pos ((ht.trust j.matchupId).2 hl)] at h2
    exact ⟨rfl, h2.2.1⟩

/-- C47: a run which ends without an error or being stopped has made good every failure: every game which failed was then
run again, until it succeeded. -/
theorem C47_made_good (events : List Event) (m : Mp RM Job Outcome RExc) (hm : World.after events = .up m)
    (hret : m.phase = .returned none) (hstop : m.src.stopping = false) (j : Job) : madeGood j m.log = true := by
  have ht := wtold events
  have hw := winv events
  rw [hm] at ht hw
  have hu : UpInv noParams m := hw
  have ht : Told noParams m.src m.inFlight m.log := ht (by rw [hret]; trivial)
  cases hg : madeGood j m.log with
  | true => rfl
  | false =>
    exfalso
    obtain ⟨hrep, _⟩ := hu.quiet (Or.inr hret) hstop
    have hp := hu.minv.phase
    rw [hret] at hp
    have hfl : m.inFlight = [] := (hp.2.2.2 rfl).1
    rcases ht.replay hstop j hg with h | h
    · rw [hfl] at h; simp at h
    · rw [hrep] at h; simp at h

/-! ### Concrete runs -/

/-- A playoff with one matchup. -/
def exampleControl (games : Int) : Control :=
  .playoff [['p'], ['q']] [⟨some ['m'], ['p'], ['q'], true, some games⟩]

def exampleEnv : Env := ⟨false, 0, true, true⟩
def exampleWin (c : Colour) : Outcome := ⟨Res.withWinner (some c), none, some 2, by cases c <;> rfl, by simp [Res.withWinner]⟩
def exampleJigo : Outcome := ⟨(Res.withWinner none).setJigo, none, none, rfl, fun _ => rfl⟩

/-- Two workers; the second game finishes first; then the first game fails and is replayed; then a crash, with two games running; then a run to the end. -/
def exampleEvents : List Event :=
  let mgr : Event := .step (.mgr exampleEnv)
  [.start (exampleControl 4) none true 2, mgr, mgr, mgr, .step (.take 0), .step (.take 1),
   .step (.finishJob 1 (some (exampleWin .b))), mgr,      -- game 1 saved
   .step (.finishJob 0 none), mgr, mgr, mgr,                  -- game 2 handed out; game 0 failed, then handed out again
   .step (.take 0), .step (.take 1), mgr, mgr,
   .down]

def exampleResume : List Event :=
  let mgr : Event := .step (.mgr exampleEnv)
  let round := [mgr, mgr, .step (.take 0), .step (.finishJob 0 (some exampleJigo)), mgr]
  [.start (exampleControl 4) none false 1] ++ round ++ round ++ round ++ [mgr, .step (.take 0), mgr]


/-- C36: the theorems aren't vacuous: in this history a game fails and is replayed, there is a crash with games in
progress, and the resumed run completes. -/
theorem C36_witness :
    ((World.after exampleEvents).saved ['m']).map GameResult.gameId = [some "m_1".toList] ∧
    ((World.after (exampleEvents ++ exampleResume)).saved ['m']).map GameResult.gameId =
      ["m_1".toList, "m_0".toList, "m_2".toList, "m_3".toList].map some ∧
    ((World.after (exampleEvents ++ exampleResume)).saved ['m']).map GameResult.playerB = [['q'], ['p'], ['p'], ['q']] ∧
    (match World.after (exampleEvents ++ exampleResume) with
      | .up m => m.phase = .returned none ∧ m.src.stopping = false
      | .down _ => False) := by
  refine ⟨by decide +kernel, by decide +kernel, by decide +kernel, ?_⟩
  exact ⟨rfl, rfl⟩

/-- Two matchups; after the first game, a crash. -/
def ghostEvents : List Event :=
  let mgr : Event := .step (.mgr exampleEnv)
  [.start (.playoff [['p'], ['q']] [⟨some ['m'], ['p'], ['q'], true, some 4⟩, ⟨some ['n'], ['p'], ['q'], true, some 4⟩]) none true 1,
   mgr, mgr, .step (.take 0), .step (.finishJob 0 (some (exampleWin .b))), mgr, .down]

/-- C36: without the hypothesis of `C36_resumable` a resume can fail: if a matchup which has had no games is removed from
the control file, the status file is refused (IndexError), because drawing the screen display has put an empty list of
results for it in the status. -/
theorem C36_ghost_witness :
    (match (World.after ghostEvents).disk with
      | some (_, s) => match (exampleControl 4).initialise with
        | .ok comp => (match State.load comp s with | .error e => some e | .ok _ => none)
        | .error _ => none
      | none => none) = some LoadErr.indexError := by
  decide +kernel

/-- C45, C46, C47: the hypotheses are met: in the example the first run has a failure which is replayed. -/
theorem C47_witness :
    (match World.after (exampleEvents.take 8) with
      | .up m => m.phase = .looping ∧ m.log.filterMap (fun c => match c with | .error j => some j.gameId | _ => none) = []
      | .down _ => False) ∧
    (match World.after (exampleEvents.take 15) with
      | .up m => m.log.filterMap (fun c => match c with | .error j => some j.gameId | _ => none) = ["m_0".toList] ∧
          (gotJobs m.log).map Job.gameId = ["m_0".toList, "m_2".toList, "m_1".toList, "m_0".toList]
      | .down _ => False) := by
  refine ⟨⟨rfl, by decide +kernel⟩, ⟨by decide +kernel, by decide +kernel⟩⟩

end Gomill.Tourn
