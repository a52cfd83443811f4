import Verif.Lemmas.GroupScheduler
/-
C01-C04: properties of gomill/competition_schedulers.py.

`runLog ops` performs the operations on a new Simple_scheduler, giving the final scheduler and the log of
what the user saw (newest first); `grunLog` does the same for a Group_scheduler.
-/
namespace Gomill.Sched
open Py SchedSpec

/-! ## C01 -/

/-- C01: after any history, the public counters are those the log implies. -/
theorem C01_counters (ops : List Op) :
    let s := (runLog ops).1
    let log := (runLog ops).2
    s.fixed = (fixedTokens log).length ∧
    s.issued = (fixedTokens log).length + (live log).length := by
  have h := inv_run ops
  exact ⟨h.fixedN, by rw [h.issuedN, h.live_eq]⟩

/-- C01: issue() never returns a token which is outstanding or fixed. -/
theorem C01_issue_fresh (ops : List Op) :
    let t := (runLog ops).1.issue.1
    let log := (runLog ops).2
    t ∉ live log ∧ t ∉ fixedTokens log := by
  have h := inv_run ops
  have h2 := inv_issue h
  refine ⟨?_, ?_⟩
  · have := h2.nodupO
    rw [h2.live_eq] at this
    exact (List.nodup_cons.1 this).1
  · have := h2.disOF (runLog ops).1.issue.1 (by rw [h2.live_eq]; simp [live])
    simpa [fixedTokens] using this

/-- C01: fix(t) succeeds exactly when t is outstanding (so a token cannot be fixed twice), and otherwise raises
KeyError. -/
theorem C01_fix_iff (ops : List Op) (t : Nat) :
    ((∃ s', (runLog ops).1.fix t = .ok s') ↔ t ∈ live (runLog ops).2) ∧
    (t ∉ live (runLog ops).2 → (runLog ops).1.fix t = .error .keyError) := by
  have h := inv_run ops
  unfold Simple.fix setRemove
  rw [← h.live_eq]
  constructor
  · split <;> simp_all [bind, Except.bind, pure, Except.pure]
  · intro hn; simp [hn, bind, Except.bind]

/-- C01: pickling and unpickling preserves everything (the counters are recomputed). -/
theorem C01_pickle (ops : List Op) :
    Simple.setstate (runLog ops).1.getstate = (runLog ops).1 := (inv_run ops).reload_eq

/-- A history with out-of-order fixes, two crashes and a failing fix. -/
example : runLog [.issue, .issue, .issue, .fix 1, .fix 1, .rollback, .issue, .reload, .rollback, .issue] =
    (⟨3, [0], [2], 2, 1⟩,
     [.issued 0, .rolledBack, .issued 0, .rolledBack, .fixed 1, .issued 2, .issued 1, .issued 0]) := by decide

/-! ## C02 -/

/-- C02: after a rollback, `k` calls of issue() return, in this order: the tokens handed out at some time but never
fixed, increasing; then new consecutive numbers, starting after all the tokens ever handed out. -/
theorem C02_reissue_order (ops : List Op) (k : Nat) :
    ∃ N, (∀ t, t ∈ everIssued (runLog ops).2 ↔ t < N) ∧
      (issueMany k (runLog ops).1.rollback).1 =
        ((List.range N).filter (fun t => t ∉ fixedTokens (runLog ops).2) ++ List.range' N k).take k := by
  have h := inv_run ops
  have h2 := inv_rollback h
  refine ⟨(runLog ops).1.nextNew, fun t => (h.ever t).symm, ?_⟩
  have := issueMany_spec k h2
    (w := (List.range (runLog ops).1.nextNew).filter (fun t => t ∉ fixedTokens (runLog ops).2)) ?_ ?_
  · exact this
  · exact List.pairwise_lt_range.filter _
  · intro t
    rw [List.mem_filter, List.mem_range]
    simp only [decide_not, Bool.not_eq_true', decide_eq_false_iff_not]
    have hc := h2.cover t
    have hf := h2.disRF t
    simp only [Simple.rollback, fixedTokens, List.not_mem_nil, false_or] at hc hf ⊢
    rw [hc]
    constructor
    · rintro ⟨h | h, hn⟩
      · exact h
      · exact absurd h hn
    · intro h; exact ⟨Or.inl h, hf h⟩

/-- C02: nothing is lost: every token ever handed out is fixed, outstanding, or will be handed out again before any
new token. -/
theorem C02_nothing_lost (ops : List Op) (t : Nat) (ht : t ∈ everIssued (runLog ops).2) :
    t ∈ fixedTokens (runLog ops).2 ∨ t ∈ live (runLog ops).2 ∨
      t ∈ (issueMany (everIssued (runLog ops).2).length (runLog ops).1).1 := by
  have h := inv_run ops
  have hc := (h.cover t).1 ((h.ever t).2 ht)
  rw [h.live_eq] at hc
  rcases hc with hc | hc | hc
  · exact Or.inr (Or.inl hc)
  · right; right
    let w := (List.range (runLog ops).1.nextNew).filter (fun t => t ∈ (runLog ops).1.toReissue)
    have hw : ∀ t, t ∈ w ↔ t ∈ (runLog ops).1.toReissue := by
      intro u
      simp only [w, List.mem_filter, List.mem_range, decide_eq_true_eq, and_iff_right_iff_imp]
      intro hu; exact (h.cover u).2 (Or.inr (Or.inl hu))
    rw [issueMany_spec _ h (w := w) (List.pairwise_lt_range.filter _) hw]
    rw [List.take_append, List.mem_append]
    left
    rw [List.take_of_length_le]
    · exact (hw t).2 hc
    · -- |w| ≤ nextNew ≤ number of issue events
      have h1 : w.length ≤ (runLog ops).1.nextNew := by
        simpa using List.length_filter_le (fun t => decide (t ∈ (runLog ops).1.toReissue)) (List.range (runLog ops).1.nextNew)
      have h2 : (List.range (runLog ops).1.nextNew).length ≤ (everIssued (runLog ops).2).length :=
        length_le_of_nodup_subset List.nodup_range (fun u hu => (h.ever u).1 (List.mem_range.1 hu))
      simp at h2; omega
  · exact Or.inl hc

example : (issueMany 4 (runLog [.issue, .issue, .issue, .fix 1]).1.rollback).1 = [0, 2, 3, 4] := by decide

/-! ## C03 -/

variable {κ : Type} [DecidableEq κ]

/-- C03: issue() gives (None, None) exactly when every group is at its limit; it then changes nothing. -/
theorem C03_none_iff (g : Group κ) :
    (g.issue.1 = none ↔ ∀ e ∈ g, ∃ l, e.limit = some l ∧ l ≤ e.alloc.issued) ∧
    (g.issue.1 = none → g.issue.2 = g) := by
  rcases h : g.issue with ⟨_ | ⟨c, t⟩, g'⟩
  · obtain ⟨rfl, h2⟩ := issue_none h
    simp only [true_iff, implies_true, and_true]
    intro e he
    have := h2 e he
    unfold GEntry.available at this
    cases hl : e.limit with
    | none => simp [hl] at this
    | some l => exact ⟨l, rfl, by simpa [hl] using this⟩
  · obtain ⟨e, he, hav, _⟩ := issue_eq h
    simp only [reduceCtorEq, false_iff, false_implies, and_true]
    intro hc
    obtain ⟨l, hl, hle⟩ := hc e he
    have := (GEntry.available_iff e).1 hav l hl
    omega

/-- C03: whatever happened before, the group chosen is below its limit and has the fewest issued games among the groups
below their limit; ties are broken by priority strictly (the position in the last set_groups() call), and the number is
that group's next token; nothing but the chosen group's bookkeeping changes. -/
theorem C03_fair (ops : List (GOp κ)) (c : κ) (t : Nat) (g' : Group κ)
    (h : (grunLog ops).1.issue = (some (c, t), g')) :
    let g := (grunLog ops).1
    ∃ e ∈ g, e.code = c ∧ (∀ l, e.limit = some l → e.alloc.issued < l) ∧
      (∀ x ∈ g, (∀ l, x.limit = some l → x.alloc.issued < l) → x.code ≠ c →
        e.alloc.issued < x.alloc.issued ∨ (e.alloc.issued = x.alloc.issued ∧ e.priority < x.priority)) ∧
      t = e.alloc.issue.1 ∧
      g' = g.map (fun x => if x.code = c then { x with alloc := e.alloc.issue.2 } else x) := by
  obtain ⟨e, he, hav, hmin, rfl, rfl, rfl⟩ := issue_eq h
  have hg := ginv_run ops
  refine ⟨e, he, rfl, (GEntry.available_iff e).1 hav, ?_, rfl, rfl⟩
  intro x hx hxa hne
  have hb := hmin x hx ((GEntry.available_iff x).2 hxa)
  have hp : x.priority ≠ e.priority := fun hc => hne (hg.inj x hx e he hc)
  unfold GEntry.before at hb
  simp only [Bool.or_eq_true, decide_eq_true_eq, Bool.and_eq_true, beq_iff_eq] at hb
  omega

/-- C03: set_groups with distinct codes: the groups are exactly the ones listed, with the new limits and the listed order as
priority; known groups keep their bookkeeping and new ones start afresh. -/
theorem C03_set_groups (old : Group κ) (specs : List (κ × Option Int))
    (hn : (specs.map Prod.fst).Nodup) :
    old.setGroups specs = specs.zipIdx.map (fun p =>
      { code := p.1.1, limit := p.1.2, priority := p.2,
        alloc := match List.find? (fun e => e.code = p.1.1) old with
          | some e => e.alloc
          | none => Simple.init }) := by
  have := setGroupsAux_nodup old specs 0 [] (by simpa [Group.codes] using hn)
  unfold Group.setGroups
  rw [this]
  rfl

/-- C03: limits are never exceeded. After set_groups() on a new scheduler with non-negative limits, whatever sequence of
issue/fix/rollback/reload calls follows, the number of tokens of a group that are fixed or outstanding is at most
its limit. -/
theorem C03_limits (specs : List (κ × Option Int)) (hpos : ∀ p ∈ specs, ∀ l, p.2 = some l → 0 ≤ l)
    (ops : List (GOp κ)) (hops : noSetGroups ops) :
    let r := grunLog (.setGroups specs :: ops)
    ∀ e ∈ r.1, ∀ l, e.limit = some l →
      ((fixedTokens (proj e.code r.2)).length + (live (proj e.code r.2)).length : Int) ≤ l := by
  intro r e he l hl
  have hg := ginv_run (.setGroups specs :: ops)
  have hw : WithinLimits r.1 := by
    refine withinLimits_foldl ops (p := gstepLog ([], []) (.setGroups specs)) (ginv_run [.setGroups specs]) ?_ hops
    intro x hx k hk
    simp only [gstepLog] at hx
    have hs := sginv_setGroups ([] : Group κ) specs
    rw [hs.alloc x hx]
    simp only [allocOf, Group.find, List.find?_nil, Simple.init]
    -- the limit comes from the specs
    have : ∀ (n : Nat) (sp : List (κ × Option Int)) (acc : Group κ),
        (∀ p ∈ sp, ∀ l, p.2 = some l → (0:Int) ≤ l) → (∀ y ∈ acc, ∀ l, y.limit = some l → (0:Int) ≤ l) →
        ∀ y ∈ Group.setGroupsAux ([] : Group κ) n sp acc, ∀ l, y.limit = some l → (0:Int) ≤ l := by
      intro n sp
      induction sp generalizing n with
      | nil => intro acc _ ha y hy l hl; exact ha y hy l hl
      | cons p sp ih =>
        intro acc hp ha
        refine ih (n+1) _ (fun q hq => hp q (List.mem_cons_of_mem _ hq)) ?_
        intro y hy l hl
        rcases mem_store hy with rfl | ⟨hy, _⟩
        · exact hp p List.mem_cons_self l hl
        · exact ha y hy l hl
    exact this 0 specs [] hpos (by simp) x hx k hk
  have hi := hg.inv e.code
  rw [allocOf_of_mem hg.nodup he] at hi
  have h1 := hi.issuedN
  rw [hi.live_eq] at h1
  have := hw e he l hl
  show ((fixedTokens (proj e.code (grunLog (.setGroups specs :: ops)).2)).length +
    (live (proj e.code (grunLog (.setGroups specs :: ops)).2)).length : Int) ≤ l
  omega

/-- C03: no (group, number) pair is handed out while it is outstanding or after it has been fixed, as long as the group has
not been dropped by set_groups() meanwhile. -/
theorem C03_issue_fresh (ops : List (GOp κ)) (c : κ) (t : Nat) (g' : Group κ)
    (h : (grunLog ops).1.issue = (some (c, t), g')) :
    t ∉ live (proj c (grunLog ops).2) ∧ t ∉ fixedTokens (proj c (grunLog ops).2) := by
  have hg := ginv_run ops
  obtain ⟨e, he, _, _, rfl, rfl, _⟩ := issue_eq h
  have hi := hg.inv e.code
  rw [allocOf_of_mem hg.nodup he] at hi
  have h2 := inv_issue hi
  refine ⟨?_, ?_⟩
  · have := h2.nodupO
    rw [h2.live_eq] at this
    exact (List.nodup_cons.1 this).1
  · have := h2.disOF e.alloc.issue.1 (by rw [h2.live_eq]; simp [live])
    simpa [fixedTokens] using this

/-- Two groups with limits 2 and none, the run interrupted once, then the second group dropped. -/
example : ((grunLog (κ := Nat) [.setGroups [(7, some 2), (5, none)], .issue, .issue, .issue, .fix 5 0, .rollback, .issue,
      .issue, .issue, .issue]).1.issue).1 = some (5, 3) := by decide

/-! ## C04 -/

/-- C04 (what holds): all_fixed() is true exactly when each *limited* group has at least as many fixed tokens as its
limit.  The documented claim adds that all groups have limits; that part is false of the code, see
`C04_all_fixed_ignores_unlimited`. -/
theorem C04_all_fixed_partial (g : Group κ) :
    g.allFixed = true ↔ ∀ e ∈ g, ∀ l, e.limit = some l → l ≤ e.alloc.fixed := by
  unfold Group.allFixed
  rw [List.all_eq_true]
  constructor
  · intro h e he l hl
    have := h e he
    rw [hl] at this
    simpa using this
  · intro h e he
    cases hl : e.limit with
    | none => rfl
    | some l => simpa using h e he l hl

/-- C04: with all groups limited, all_fixed() means what the docstring says. -/
theorem C04_all_fixed_limited (g : Group κ) (hlim : ∀ e ∈ g, e.limit ≠ none) :
    g.allFixed = true ↔ ∀ e ∈ g, ∃ l, e.limit = some l ∧ l ≤ e.alloc.fixed := by
  rw [C04_all_fixed_partial]
  constructor
  · intro h e he
    cases hl : e.limit with
    | none => exact absurd hl (hlim e he)
    | some l => exact ⟨l, rfl, h e he l hl⟩
  · intro h e he l hl
    obtain ⟨l', hl', hle⟩ := h e he
    rw [hl] at hl'; cases hl'; exact hle

/-- C04 (violation): the documented claim "returns true [only] if all groups have limits" is false: a
scheduler with an unlimited group, reachable by set_groups(), for which all_fixed() is true with nothing
issued at all. -/
theorem C04_all_fixed_ignores_unlimited :
    ∃ ops : List (GOp Nat), (grunLog ops).1.allFixed = true ∧ (∃ e ∈ (grunLog ops).1, e.limit = none) ∧
      (grunLog ops).1.nothingIssuedYet = true :=
  ⟨[.setGroups [(0, none)]], by decide⟩

/-- Non-vacuity for `C04_all_fixed_limited`. -/
example : ∃ g : Group Nat, (∀ e ∈ g, e.limit ≠ none) ∧ g.allFixed = true ∧ g.length = 2 :=
  ⟨(grunLog [.setGroups [(1, some 1), (2, some 1)], .issue, .issue, .fix 2 0, .fix 1 0]).1, by decide⟩

end Gomill.Sched
