import Verif.Lemmas.Mcts
import Verif.Props.Mcts
/-
C43: the statistics in the tree of the MCTS tuner.
-/
namespace Gomill.Mcts
open Py Sched MctsSpec
open MctsSpec (Ev)

/-! ### A tuner being used by the ringmaster -/

/-- What the ringmaster may do.  `starts` is what the random number generator gives, `makeOk` says whether the user's
functions in the control file work for the parameters. -/
inductive TOp where
  | getGame (starts : Nat → Nat) (makeOk : List Rat → Bool)
  | result (n : Nat) (won : Bool)
  | error (n : Nat)
  | save
  | restart

/-- A tuner and its status file, with what happened to each of them. -/
structure Sys (α : Type) where
  tuner : Tuner
  log : List Ev
  saved : Saved α
  savedLog : List Ev

variable {α : Type} [DecidableEq α]

/-- The start of the first run. -/
def Sys.init (c : Config) (scaled0 : α) : Sys α := ⟨.clean c, [], (Tuner.clean c).save scaled0, []⟩

/-- One step.  Only results (or failures) of games which are being played are reported.  A restart is at any time: the
program may have crashed. -/
def Sys.step (c : Config) (limit : Option Int) (scaled0 : α) (s : Sys α) : TOp → Sys α
  | .getGame starts makeOk =>
    match s.tuner.getGame c limit starts makeOk with
    | (.ok (some (n, _)), t) => { s with tuner := t, log := .issued n (c.run starts s.tuner.root).1 :: s.log }
    | (_, t) => { s with tuner := t }
  | .result n won =>
    if running n s.log = none then s else
    match s.tuner.processResult n won with
    | (.ok _, t) => { s with tuner := t, log := .finished n won :: s.log }
    | (.error _, t) => { s with tuner := t }
  | .error n =>
    if running n s.log = none then s else
    match s.tuner.processError n with
    | (.ok _, t) => { s with tuner := t, log := .failed n :: s.log }
    | (.error _, t) => { s with tuner := t }
  | .save => { s with saved := s.tuner.save scaled0, savedLog := s.log }
  | .restart =>
    match Tuner.load c scaled0 s.saved with
    | some t => { s with tuner := t, log := .restarted :: s.savedLog }
    | none => s

/-- Any sequence of steps. -/
def Sys.run (c : Config) (limit : Option Int) (scaled0 : α) (ops : List TOp) : Sys α :=
  ops.foldl (Sys.step c limit scaled0) (Sys.init c scaled0)

/-- The settings which a control file may have. -/
structure Config.Ok (c : Config) : Prop where
  splits : ∀ s ∈ c.splits, 0 < s
  depth : 1 ≤ c.maxDepth

theorem Config.Ok.bf {c : Config} (h : c.Ok) : 0 < branchingFactor c.splits := by
  rw [branchingFactor_eq]; exact product_pos h.splits

/-! ### The invariant -/

/-- The part about the tree and the status file. -/
structure TreeInv (c : Config) (limit : Option Int) (sch : Simple) (root : Node) (log : List Ev) : Prop where
  uniform : Uniform (branchingFactor c.splits) root
  expanded : root.arity = some (branchingFactor c.splits)
  depth : ∀ p, (root.get p).isSome → p.length ≤ c.maxDepth
  stats : ∀ p n, root.get p = some n → n.visits = c.initialVisits + through p (completed log) ∧
    n.wins = c.initialWins + wonThrough p (completed log)
  paths : ∀ s ∈ completed log, (root.get s.1).isSome ∧ s.1 ≠ []
  current : ∀ n p, running n log = some p → (root.get p).isSome ∧ p ≠ [] ∧ n ∈ sch.outstanding
  sched : ∃ l, Inv sch l ∧ SchedSpec.fixedTokens l = ended log
  limit : ∀ k, limit = some k → 0 ≤ k → (sch.nextNew : Int) ≤ k

structure SysInv (c : Config) (limit : Option Int) (scaled0 : α) (s : Sys α) : Prop where
  tree : TreeInv c limit s.tuner.scheduler s.tuner.root s.log
  out : ∀ n, s.tuner.outstanding.lookup n = running n s.log
  savedTree : TreeInv c limit s.saved.scheduler s.saved.root s.savedLog
  path0 : s.saved.path0 = scaled0
  halt : s.tuner.haltOnNextFailure = !lastSucceeded s.log

theorem clean_inv {c : Config} (h : c.Ok) (limit : Option Int) : TreeInv c limit Simple.init c.newRoot [] := by
  have hget : ∀ p n, c.newRoot.get p = some n → p = [] ∧ n = c.newRoot ∨ p.length = 1 ∧ n = c.newNode := by
    intro p n hn
    cases p with
    | nil => exact .inl ⟨rfl, by simpa [Node.get] using hn.symm⟩
    | cons i p =>
      simp only [Config.newRoot, Node.get, Config.newChildren, List.getElem?_replicate] at hn
      by_cases hi : i < branchingFactor c.splits
      · rw [if_pos hi] at hn
        simp only at hn
        cases p with
        | nil => exact .inr ⟨rfl, by simpa [Node.get] using hn.symm⟩
        | cons => simp [Config.newNode, Node.get] at hn
      · rw [if_neg hi] at hn; cases hn
  refine ⟨?_, ?_, ?_, ?_, ?_, ?_, ⟨[], inv_init, rfl⟩, ?_⟩
  · intro p m hm k hk
    rcases hget p m hm with ⟨_, rfl⟩ | ⟨_, rfl⟩
    · simpa [Node.arity, Node.children, Config.newRoot, Config.newChildren] using hk.symm
    · simp [Node.arity, Node.children, Config.newNode] at hk
  · simp [Node.arity, Node.children, Config.newRoot, Config.newChildren]
  · intro p hp
    obtain ⟨n, hn⟩ := Option.isSome_iff_exists.1 hp
    have := h.depth
    rcases hget p n hn with ⟨rfl, _⟩ | ⟨hl, _⟩
    · simp
    · omega
  · intro p n hn
    rcases hget p n hn with ⟨_, rfl⟩ | ⟨_, rfl⟩ <;>
      simp [completed, through, wonThrough, Config.newRoot, Config.newNode, Node.visits, Node.wins]
  · intro s hs; simp [completed] at hs
  · intro n p hp; simp [running] at hp
  · intro k _ hk; simpa [Simple.init] using hk

theorem issue_nextNew {limit : Option Int} {sch : Simple} {l} (hi : Inv sch l)
    (hlim : ∀ k, limit = some k → 0 ≤ k → (sch.nextNew : Int) ≤ k)
    (hlt : ∀ k, limit = some k → sch.issued < k) : ∀ k, limit = some k → 0 ≤ k → (sch.issue.2.nextNew : Int) ≤ k := by
  intro k hk h0
  unfold Simple.issue
  cases hm : sch.toReissue.min? with
  | some r => simpa using hlim k hk h0
  | none =>
    have h1 := hi.nextNew_eq
    have h2 := hi.issuedN
    have h3 := hlt k hk
    have h4 : sch.toReissue = [] := by simpa using hm
    rw [h4] at h1
    simp at h1
    simp only
    omega

theorem mem_issue_outstanding {sch : Simple} {n : Nat} (h : n ∈ sch.outstanding) : n ∈ sch.issue.2.outstanding := by
  unfold Simple.issue
  cases sch.toReissue.min? <;> simp [mem_setAdd, h]

theorem issue_mem_outstanding {sch : Simple} : sch.issue.1 ∈ sch.issue.2.outstanding := by
  unfold Simple.issue
  cases sch.toReissue.min? <;> simp [mem_setAdd]

/-- A simulation is started: the statistics aren't changed. -/
theorem tree_run {c : Config} (h : c.Ok) {limit sch root log} (hi : TreeInv c limit sch root log)
    (hlt : ∀ k, limit = some k → sch.issued < k) (starts : Nat → Nat) :
    TreeInv c limit sch.issue.2 (c.run starts root).2 log ∧
    TreeInv c limit sch.issue.2 (c.run starts root).2 (.issued sch.issue.1 (c.run starts root).1 :: log) := by
  have hr := run_spec h.bf starts hi.uniform
  have hexp : (c.run starts root).1 ≠ [] := by
    rcases hr.expanded with he | he
    · exact he
    · rw [hi.expanded] at he; cases he
  obtain ⟨l, hl, hf⟩ := hi.sched
  have huni := hr.uniform
  have hdep : ∀ p, ((c.run starts root).2.get p).isSome → p.length ≤ c.maxDepth := by
    intro p hp
    obtain ⟨n', hn'⟩ := Option.isSome_iff_exists.1 hp
    rcases hr.new p n' hn' with ⟨n, hn, _⟩ | ⟨_, _, hlen⟩
    · exact hi.depth p (by rw [hn]; rfl)
    · exact hlen
  have hstat : ∀ p n, (c.run starts root).2.get p = some n → n.visits = c.initialVisits + through p (completed log) ∧
      n.wins = c.initialWins + wonThrough p (completed log) := by
    intro p n' hn'
    rcases hr.new p n' hn' with ⟨n, hn, hw, hv⟩ | ⟨hnone, hnew, _⟩
    · rw [hw, hv]; exact hi.stats p n hn
    · have hz : through p (completed log) = 0 := by
        unfold through
        rw [List.countP_eq_zero]
        intro s hs hpre
        rw [List.isPrefixOf_iff_prefix] at hpre
        obtain ⟨t, ht⟩ := hpre
        have := (hi.paths s hs).1
        rw [← ht, get_append, hnone] at this
        simp at this
      have hz2 : wonThrough p (completed log) = 0 := by
        have : wonThrough p (completed log) ≤ through p (completed log) := by
          apply List.countP_mono_left
          intro s _ hs
          simp only [Bool.and_eq_true] at hs
          exact hs.1
        omega
      rw [hz, hz2, hnew]
      simp [Config.newNode, Node.visits, Node.wins]
  have harity : (c.run starts root).2.arity = some (branchingFactor c.splits) := by
    have h0 := hr.uniform [] _ rfl
    cases ha : (c.run starts root).2.arity with
    | some k => rw [h0 k ha]
    | none =>
      exfalso
      obtain ⟨w, v, hleaf⟩ := hr.leaf
      generalize (c.run starts root).2 = r at *
      generalize (c.run starts root).1 = p at *
      obtain ⟨cs, w', v'⟩ := r
      cases cs with
      | some cs => simp [Node.arity, Node.children] at ha
      | none =>
        cases p with
        | nil => exact hexp rfl
        | cons => simp [Node.get] at hleaf
  refine ⟨⟨huni, harity, hdep, hstat, fun s hs => ⟨hr.old _ (hi.paths s hs).1, (hi.paths s hs).2⟩, ?_,
      ⟨_, inv_issue hl, by simpa [SchedSpec.fixedTokens] using hf⟩, issue_nextNew hl hi.limit hlt⟩,
    ⟨huni, harity, hdep, by simpa [completed] using hstat,
      fun s hs => ⟨hr.old _ (hi.paths s (by simpa [completed] using hs)).1, (hi.paths s (by simpa [completed] using hs)).2⟩, ?_,
      ⟨_, inv_issue hl, by simpa [SchedSpec.fixedTokens, ended] using hf⟩, issue_nextNew hl hi.limit hlt⟩⟩
  · intro n p hp
    obtain ⟨h1, h2, h3⟩ := hi.current n p hp
    exact ⟨hr.old _ h1, h2, mem_issue_outstanding h3⟩
  · intro n p hp
    simp only [running] at hp
    split at hp
    · rename_i heq
      cases hp
      obtain ⟨w, v, hleaf⟩ := hr.leaf
      exact ⟨by rw [hleaf]; rfl, hexp, heq ▸ issue_mem_outstanding⟩
    · obtain ⟨h1, h2, h3⟩ := hi.current n p hp
      exact ⟨hr.old _ h1, h2, mem_issue_outstanding h3⟩

theorem fix_ok {sch : Simple} {n : Nat} (h : n ∈ sch.outstanding) :
    sch.fix n = .ok { sch with outstanding := sch.outstanding.erase n, fixed := sch.fixed + 1 } := by
  unfold Simple.fix setRemove
  rw [if_pos h]
  rfl

theorem tree_finish {c : Config} {limit sch root log} (hi : TreeInv c limit sch root log) {n : Nat} {p : List Nat}
    (hp : running n log = some p) (won : Bool) {sch' : Simple} (hfix : sch.fix n = .ok sch') :
    TreeInv c limit sch' (updateStats won root p) (.finished n won :: log) := by
  obtain ⟨l, hl, hf⟩ := hi.sched
  obtain ⟨hps, hpne, hmem⟩ := hi.current n p hp
  have hsch : sch' = { sch with outstanding := sch.outstanding.erase n, fixed := sch.fixed + 1 } := by
    rw [fix_ok hmem] at hfix; exact (Except.ok.inj hfix).symm
  have hcomp : completed (.finished n won :: log) = (p, won) :: completed log := by
    simp [completed, hp]
  refine ⟨?_, ?_, ?_, ?_, ?_, ?_, ⟨_, inv_fix hl hfix, by simp [SchedSpec.fixedTokens, ended, hf]⟩, ?_⟩
  · intro q m hm k hk
    obtain ⟨n0, hn0, ha, _⟩ := get_updateStats won hm
    rw [ha] at hk
    exact hi.uniform q n0 hn0 k hk
  · obtain ⟨n0, hn0, ha, _⟩ := get_updateStats won (q := []) (n' := updateStats won root p) (path := p) (root := root) rfl
    simp only [Node.get, Option.some.injEq] at hn0
    subst hn0
    rw [ha]; exact hi.expanded
  · intro q hq
    obtain ⟨n', hn'⟩ := Option.isSome_iff_exists.1 hq
    obtain ⟨n0, hn0, _⟩ := get_updateStats won hn'
    exact hi.depth q (by rw [hn0]; rfl)
  · intro q n' hn'
    obtain ⟨n0, hn0, _, hv, hw⟩ := get_updateStats won hn'
    obtain ⟨h1, h2⟩ := hi.stats q n0 hn0
    rw [hcomp]
    unfold through wonThrough at *
    rw [List.countP_cons, List.countP_cons, hv, hw, h1, h2]
    by_cases hq : q <+: p
    · have hq' : q.isPrefixOf p = true := List.isPrefixOf_iff_prefix.2 hq
      cases won <;> simp [hq, hq'] <;> omega
    · have hq' : q.isPrefixOf p = false := by
        rw [Bool.eq_false_iff]; intro hh; exact hq (List.isPrefixOf_iff_prefix.1 hh)
      simp [hq, hq']
  · intro s hs
    rw [hcomp] at hs
    rcases List.mem_cons.1 hs with rfl | hs
    · exact ⟨get_updateStats_isSome won hps, hpne⟩
    · exact ⟨get_updateStats_isSome won (hi.paths s hs).1, (hi.paths s hs).2⟩
  · intro m q hq
    simp only [running] at hq
    split at hq
    · cases hq
    · rename_i hne
      obtain ⟨h1, h2, h3⟩ := hi.current m q hq
      refine ⟨get_updateStats_isSome won h1, h2, ?_⟩
      rw [hsch]
      exact (List.mem_erase_of_ne (fun hh => hne hh.symm)).2 h3
  · rw [hsch]; exact hi.limit

theorem tree_fail {c : Config} {limit sch root log} (hi : TreeInv c limit sch root log) {n : Nat} {p : List Nat}
    (hp : running n log = some p) {sch' : Simple} (hfix : sch.fix n = .ok sch') :
    TreeInv c limit sch' root (.failed n :: log) := by
  obtain ⟨l, hl, hf⟩ := hi.sched
  obtain ⟨hps, hpne, hmem⟩ := hi.current n p hp
  have hsch : sch' = { sch with outstanding := sch.outstanding.erase n, fixed := sch.fixed + 1 } := by
    rw [fix_ok hmem] at hfix; exact (Except.ok.inj hfix).symm
  refine ⟨hi.uniform, hi.expanded, hi.depth, by simpa [completed] using hi.stats, by simpa [completed] using hi.paths, ?_,
    ⟨_, inv_fix hl hfix, by simp [SchedSpec.fixedTokens, ended, hf]⟩, ?_⟩
  · intro m q hq
    simp only [running] at hq
    split at hq
    · cases hq
    · rename_i hne
      obtain ⟨h1, h2, h3⟩ := hi.current m q hq
      refine ⟨h1, h2, ?_⟩
      rw [hsch]
      exact (List.mem_erase_of_ne (fun hh => hne hh.symm)).2 h3
  · rw [hsch]; exact hi.limit

theorem tree_restart {c : Config} {limit sch root log} (hi : TreeInv c limit sch root log) :
    TreeInv c limit (Simple.setstate sch.getstate).rollback root (.restarted :: log) := by
  obtain ⟨l, hl, hf⟩ := hi.sched
  rw [hl.reload_eq]
  refine ⟨hi.uniform, hi.expanded, hi.depth, by simpa [completed] using hi.stats, by simpa [completed] using hi.paths, ?_,
    ⟨_, inv_rollback hl, by simp [SchedSpec.fixedTokens, ended, hf]⟩, ?_⟩
  · intro m q hq; simp [running] at hq
  · exact hi.limit

theorem lookup_filter_ne {β : Type} (l : List (Nat × β)) (n m : Nat) :
    (l.filter (fun p => p.1 ≠ n)).lookup m = if m = n then none else l.lookup m := by
  induction l with
  | nil => simp
  | cons a l ih =>
    obtain ⟨k, b⟩ := a
    by_cases hk : k = n
    · subst hk
      rw [List.filter_cons_of_neg (by simp), ih]
      by_cases hm : m = k
      · simp [hm]
      · have hmk : (m == k) = false := by simpa using hm
        simp [hm, List.lookup_cons, hmk]
    · rw [List.filter_cons_of_pos (by simpa using hk)]
      by_cases hm : m = k
      · subst hm; simp [hk]
      · have hmk : (m == k) = false := by simpa using hm
        rw [List.lookup_cons, List.lookup_cons, ih, hmk]

theorem load_saved {c : Config} (h : c.Ok) {limit : Option Int} {scaled0 : α} {s : Saved α} {log : List Ev}
    (hi : TreeInv c limit s.scheduler s.root log) (h0 : s.path0 = scaled0) :
    Tuner.load c scaled0 s = some ⟨(Simple.setstate s.scheduler.getstate).rollback, s.root, [], true⟩ := by
  have hexp := hi.expanded
  unfold Tuner.load
  unfold Node.arity at hexp
  cases hc : s.root.children with
  | none => rw [hc] at hexp; simp at hexp
  | some cs =>
    rw [hc] at hexp
    simp only [Option.map_some, Option.some.injEq] at hexp
    have hbf := h.bf
    have h1 : ¬ (cs.length ≠ branchingFactor c.splits ∨ cs.isEmpty = true) := by
      rintro (h1 | h1)
      · exact h1 hexp
      · rw [List.isEmpty_iff] at h1; subst h1; simp at hexp; omega
    simp only
    rw [if_neg h1, if_neg (by simpa using h0)]

theorem step_inv {c : Config} (h : c.Ok) {limit : Option Int} {scaled0 : α} {s : Sys α} (hi : SysInv c limit scaled0 s)
    (op : TOp) : SysInv c limit scaled0 (s.step c limit scaled0 op) := by
  cases op with
  | save => exact ⟨hi.tree, hi.out, hi.tree, rfl, hi.halt⟩
  | restart =>
    simp only [Sys.step, load_saved h hi.savedTree hi.path0]
    exact ⟨tree_restart hi.savedTree, fun n => by simp [running], hi.savedTree, hi.path0, rfl⟩
  | result n won =>
    simp only [Sys.step]
    by_cases hr : running n s.log = none
    · rw [if_pos hr]; exact hi
    · rw [if_neg hr]
      obtain ⟨p, hp⟩ := Option.ne_none_iff_exists'.1 hr
      obtain ⟨_, _, hmem⟩ := hi.tree.current n p hp
      have hl : s.tuner.outstanding.lookup n = some p := by rw [hi.out, hp]
      unfold Tuner.processResult
      simp only [fix_ok hmem, hl]
      refine ⟨tree_finish hi.tree hp won (fix_ok hmem), ?_, hi.savedTree, hi.path0, rfl⟩
      intro m
      rw [lookup_filter_ne, hi.out m]
      simp only [running, eq_comm]
  | error n =>
    simp only [Sys.step]
    by_cases hr : running n s.log = none
    · rw [if_pos hr]; exact hi
    · rw [if_neg hr]
      obtain ⟨p, hp⟩ := Option.ne_none_iff_exists'.1 hr
      obtain ⟨_, _, hmem⟩ := hi.tree.current n p hp
      have hl : s.tuner.outstanding.lookup n = some p := by rw [hi.out, hp]
      unfold Tuner.processError
      simp only [fix_ok hmem, hl]
      refine ⟨tree_fail hi.tree hp (fix_ok hmem), ?_, hi.savedTree, hi.path0, rfl⟩
      intro m
      rw [lookup_filter_ne, hi.out m]
      simp only [running, eq_comm]
  | getGame starts makeOk =>
    have hplay : (∀ k, limit = some k → s.tuner.scheduler.issued < k) →
        SysInv c limit scaled0 (match Tuner.getGame.play c starts makeOk s.tuner with
          | (.ok (some (n, _)), t) => { s with tuner := t, log := .issued n (c.run starts s.tuner.root).1 :: s.log }
          | (_, t) => { s with tuner := t }) := by
      intro hlt
      obtain ⟨h1, h2⟩ := tree_run h hi.tree hlt starts
      unfold Tuner.getGame.play
      simp only
      cases hpp : parametersForPath c.splits (c.run starts s.tuner.root).1 with
      | error e => exact ⟨h1, hi.out, hi.savedTree, hi.path0, hi.halt⟩
      | ok ps =>
        simp only
        by_cases hm : makeOk ps = true
        · rw [if_pos hm]
          refine ⟨h2, ?_, hi.savedTree, hi.path0, hi.halt⟩
          intro m
          simp only [running]
          rw [List.lookup_append, lookup_filter_ne, hi.out m]
          by_cases hmn : m = s.tuner.scheduler.issue.1
          · subst hmn; simp
          · have hmn' : ¬ s.tuner.scheduler.issue.1 = m := fun hh => hmn hh.symm
            have hmk : (m == s.tuner.scheduler.issue.1) = false := by simpa using hmn
            simp [hmn, hmn', List.lookup_cons, hmk]
        · rw [if_neg hm]
          exact ⟨h1, hi.out, hi.savedTree, hi.path0, hi.halt⟩
    simp only [Sys.step]
    unfold Tuner.getGame
    cases limit with
    | none => exact hplay (fun k hk => by cases hk)
    | some k =>
      simp only
      by_cases hk : s.tuner.scheduler.issued ≥ k
      · rw [if_pos hk]; exact hi
      · rw [if_neg hk]
        exact hplay (fun k' hk' => by cases hk'; omega)

theorem run_inv {c : Config} (h : c.Ok) (limit : Option Int) (scaled0 : α) (ops : List TOp) :
    SysInv c limit scaled0 (Sys.run c limit scaled0 ops) := by
  unfold Sys.run
  have h0 : SysInv c limit scaled0 (Sys.init c scaled0) :=
    ⟨clean_inv h limit, fun n => rfl, clean_inv h limit, rfl, rfl⟩
  generalize Sys.init c scaled0 = s at h0
  induction ops generalizing s with
  | nil => exact h0
  | cons op ops ih => exact ih _ (step_inv h h0 op)

/-! ### The properties -/

/-- **C43** (visit counts).  At every moment, whatever has happened (games given out, results and failures in any order, the
status saved, the program restarted from the status file), each node of the tree has its initial visits plus one for every
completed simulation which went through it, and its initial wins plus one for each of those that the candidate won.
Simulations completed since the status file was last written are forgotten by a restart, with their games. -/
theorem C43_counts {c : Config} (h : c.Ok) (limit : Option Int) (scaled0 : α) (ops : List TOp) {p : List Nat} {n : Node}
    (hn : (Sys.run c limit scaled0 ops).tuner.root.get p = some n) :
    n.visits = c.initialVisits + through p (completed (Sys.run c limit scaled0 ops).log) ∧
    n.wins = c.initialWins + wonThrough p (completed (Sys.run c limit scaled0 ops).log) :=
  (run_inv h limit scaled0 ops).tree.stats p n hn

/-- **C43** (wins and visits).  A node's wins exceed the initial wins by no more than its visits exceed the initial visits. -/
theorem C43_wins_le {c : Config} (h : c.Ok) (limit : Option Int) (scaled0 : α) (ops : List TOp) {p : List Nat} {n : Node}
    (hn : (Sys.run c limit scaled0 ops).tuner.root.get p = some n) :
    c.initialVisits ≤ n.visits ∧ c.initialWins ≤ n.wins ∧
    n.wins + c.initialVisits ≤ c.initialWins + n.visits := by
  obtain ⟨h1, h2⟩ := C43_counts h limit scaled0 ops hn
  have : wonThrough p (completed (Sys.run c limit scaled0 ops).log) ≤ through p (completed (Sys.run c limit scaled0 ops).log) := by
    apply List.countP_mono_left
    intro s _ hs
    simp only [Bool.and_eq_true] at hs
    exact hs.1
  omega

/-- **C43** (failures).  The failure of a game leaves the tree as it was. -/
theorem C43_failure {c : Config} (n : Nat) (t : Tuner) : (t.processError n).2.root = t.root := by
  unfold Tuner.processError
  split
  · rfl
  · simp only
    split <;> rfl

/-- **C43** (shape of the tree).  Every expanded node has one child for each coordinate vector, and no node is deeper than
`max_depth`. -/
theorem C43_shape {c : Config} (h : c.Ok) (limit : Option Int) (scaled0 : α) (ops : List TOp) {p : List Nat} {n : Node}
    (hn : (Sys.run c limit scaled0 ops).tuner.root.get p = some n) :
    p.length ≤ c.maxDepth ∧ (∀ i ∈ p, i < product c.splits) ∧ ∀ cs, n.children = some cs → cs.length = product c.splits := by
  have hi := (run_inv h limit scaled0 ops).tree
  have hs : ((Sys.run c limit scaled0 ops).tuner.root.get p).isSome := by rw [hn]; rfl
  refine ⟨hi.depth p hs, ?_, ?_⟩
  · rw [← branchingFactor_eq]; exact get_lt hi.uniform hs
  · intro cs hcs
    rw [← branchingFactor_eq]
    exact hi.uniform p n hn _ (by simp [Node.arity, hcs])

/-- **C43** (`get_game`).  While the user's functions work, `get_game` gives a game if and only if fewer than
`number_of_games` have been issued.  The game's parameters are those of a path from the root to a leaf of the tree, of length
between 1 and `max_depth`; at each node on the path (with its statistics at that moment) the chosen child is one of those of
greatest urgency. -/
theorem C43_get_game {c : Config} (h : c.Ok) (limit : Option Int) (scaled0 : α) (ops : List TOp) (starts : Nat → Nat)
    {makeOk : List Rat → Bool} (hmk : ∀ ps, makeOk ps = true)
    (hlim : ∀ k, limit = some k → (Sys.run c limit scaled0 ops).tuner.scheduler.issued < k) :
    ∃ n ps path, ∃ t : Tuner, (Sys.run c limit scaled0 ops).tuner.getGame c limit starts makeOk = (.ok (some (n, ps)), t) ∧
      parametersForPath c.splits path = .ok ps ∧
      ((Sys.run c limit scaled0 ops).step c limit scaled0 (.getGame starts makeOk)).log
        = .issued n path :: (Sys.run c limit scaled0 ops).log ∧
      1 ≤ path.length ∧ path.length ≤ c.maxDepth ∧ (∃ w v, t.root.get path = some (.mk none w v)) ∧
      (∀ q i, q ++ [i] <+: path → ∃ cs w v, t.root.get q = some (.mk (some cs) w v) ∧
        ∃ m, cs[i]? = some m ∧ ∀ m' ∈ cs, c.urgency v m'.wins m'.visits ≤ c.urgency v m.wins m.visits) := by
  have hi := (run_inv h limit scaled0 ops)
  generalize Sys.run c limit scaled0 ops = s at *
  have hr := run_spec h.bf starts hi.tree.uniform
  obtain ⟨h1, h2⟩ := tree_run h hi.tree hlim starts
  have hexp : (c.run starts s.tuner.root).1 ≠ [] := by
    rcases hr.expanded with he | he
    · exact he
    · rw [hi.tree.expanded] at he; cases he
  obtain ⟨w, v, hleaf⟩ := hr.leaf
  have hlt : ∀ i ∈ (c.run starts s.tuner.root).1, i < product c.splits := by
    rw [← branchingFactor_eq]; exact get_lt hr.uniform (by rw [hleaf]; rfl)
  obtain ⟨ps, hps, _⟩ := C42_centre h.splits hlt
  have hg : s.tuner.getGame c limit starts makeOk = (.ok (some (s.tuner.scheduler.issue.1, ps)),
      { s.tuner with scheduler := s.tuner.scheduler.issue.2, root := (c.run starts s.tuner.root).2,
                     outstanding := s.tuner.outstanding.filter (fun p => p.1 ≠ s.tuner.scheduler.issue.1) ++
                       [(s.tuner.scheduler.issue.1, (c.run starts s.tuner.root).1)] }) := by
    have hplay : Tuner.getGame.play c starts makeOk s.tuner = (.ok (some (s.tuner.scheduler.issue.1, ps)),
      { s.tuner with scheduler := s.tuner.scheduler.issue.2, root := (c.run starts s.tuner.root).2,
                     outstanding := s.tuner.outstanding.filter (fun p => p.1 ≠ s.tuner.scheduler.issue.1) ++
                       [(s.tuner.scheduler.issue.1, (c.run starts s.tuner.root).1)] }) := by
      unfold Tuner.getGame.play
      simp only [hps, hmk ps, if_true]
    unfold Tuner.getGame
    cases limit with
    | none => exact hplay
    | some k =>
      have := hlim k rfl
      simp only
      rw [if_neg (by omega)]
      exact hplay
  refine ⟨_, ps, (c.run starts s.tuner.root).1, _, hg, hps, ?_, ?_, ?_, ⟨w, v, hleaf⟩, hr.choice⟩
  · simp only [Sys.step, hg]
  · exact List.length_pos_iff.2 hexp
  · exact h1.depth _ (by rw [hleaf]; rfl)

/-- ... and it gives none if `number_of_games` have been issued. -/
theorem C43_get_game_none {c : Config} {k : Int} {t : Tuner} (starts : Nat → Nat) (makeOk : List Rat → Bool)
    (h : k ≤ t.scheduler.issued) : t.getGame c (some k) starts makeOk = (.ok none, t) := by
  unfold Tuner.getGame
  simp only
  rw [if_pos h]

/-- **C43** (reports about games in progress are accepted).  The result or the failure of a game which is in progress is
always processed without an internal error. -/
theorem C43_no_errors {c : Config} (h : c.Ok) (limit : Option Int) (scaled0 : α) (ops : List TOp) {n : Nat}
    (hn : running n (Sys.run c limit scaled0 ops).log ≠ none) (won : Bool) :
    ((Sys.run c limit scaled0 ops).tuner.processResult n won).1 = .ok () ∧
    ∃ stop, ((Sys.run c limit scaled0 ops).tuner.processError n).1 = .ok stop := by
  have hi := run_inv h limit scaled0 ops
  generalize Sys.run c limit scaled0 ops = s at *
  obtain ⟨p, hp⟩ := Option.ne_none_iff_exists'.1 hn
  obtain ⟨_, _, hmem⟩ := hi.tree.current n p hp
  have hl : s.tuner.outstanding.lookup n = some p := by rw [hi.out, hp]
  constructor
  · unfold Tuner.processResult
    simp only [fix_ok hmem, hl]
  · unfold Tuner.processError
    simp only [fix_ok hmem, hl]
    exact ⟨_, rfl⟩

/-- **C43** (restarting).  The status file written at any moment is accepted when the program is restarted with the same
control file; the tree is what it was when the status was saved and no games are in progress. -/
theorem C43_restart {c : Config} (h : c.Ok) (limit : Option Int) (scaled0 : α) (ops : List TOp) :
    ∃ t, Tuner.load c scaled0 ((Sys.run c limit scaled0 ops).tuner.save scaled0) = some t ∧
      t.root = (Sys.run c limit scaled0 ops).tuner.root ∧ t.outstanding = [] ∧
      t.scheduler.fixed = (Sys.run c limit scaled0 ops).tuner.scheduler.fixed ∧
      t.scheduler.issued = (Sys.run c limit scaled0 ops).tuner.scheduler.fixed := by
  have hi := run_inv h limit scaled0 ops
  generalize Sys.run c limit scaled0 ops = s at *
  refine ⟨_, load_saved h (s := s.tuner.save scaled0) hi.tree rfl, rfl, rfl, ?_, ?_⟩
  · obtain ⟨l, hl, _⟩ := hi.tree.sched
    show ((Simple.setstate s.tuner.scheduler.getstate).rollback).fixed = _
    rw [hl.reload_eq]; rfl
  · obtain ⟨l, hl, _⟩ := hi.tree.sched
    show ((Simple.setstate s.tuner.scheduler.getstate).rollback).issued = _
    rw [hl.reload_eq]
    have h1 := hl.issuedN
    have h2 := hl.fixedN
    simp only [Simple.rollback]
    omega

/-- **C43** (number of games).  The number of games reported as played is the number which ended (failed games are counted);
no game number ends twice; and if `number_of_games` is given (and isn't negative) then every game number is less than it, so
that no more games than that are ever played. -/
theorem C43_number_of_games {c : Config} (h : c.Ok) (limit : Option Int) (scaled0 : α) (ops : List TOp) :
    (Sys.run c limit scaled0 ops).tuner.scheduler.fixed = (ended (Sys.run c limit scaled0 ops).log).length ∧
    (ended (Sys.run c limit scaled0 ops).log).Nodup ∧
    (∀ k, limit = some k → 0 ≤ k → (∀ n ∈ ended (Sys.run c limit scaled0 ops).log, (n : Int) < k) ∧
      (∀ n, running n (Sys.run c limit scaled0 ops).log ≠ none → (n : Int) < k) ∧
      ((ended (Sys.run c limit scaled0 ops).log).length : Int) ≤ k) := by
  have hi := run_inv h limit scaled0 ops
  generalize Sys.run c limit scaled0 ops = s at *
  obtain ⟨l, hl, hf⟩ := hi.tree.sched
  refine ⟨by rw [← hf]; exact hl.fixedN, by rw [← hf]; exact hl.nodupF, ?_⟩
  intro k hk h0
  have h1 := hi.tree.limit k hk h0
  have h2 := hl.nextNew_eq
  refine ⟨?_, ?_, ?_⟩
  · intro n hn
    rw [← hf] at hn
    have := (hl.cover n).2 (.inr (.inr hn))
    omega
  · intro n hn
    obtain ⟨p, hp⟩ := Option.ne_none_iff_exists'.1 hn
    have := (hl.cover n).2 (.inl (hi.tree.current n p hp).2.2)
    omega
  · rw [← hf]; omega

/-- **C43** (the best parameters).  `retrieve_best_parameters` follows, from the root to a leaf, at each node the first of the
children with most wins. -/
theorem C43_best {c : Config} (h : c.Ok) (limit : Option Int) (scaled0 : α) (ops : List TOp) :
    (∃ w v, (Sys.run c limit scaled0 ops).tuner.root.get (bestPath (Sys.run c limit scaled0 ops).tuner.root)
      = some (.mk none w v)) ∧
    ∀ q i, q ++ [i] <+: bestPath (Sys.run c limit scaled0 ops).tuner.root →
      ∃ cs w v, (Sys.run c limit scaled0 ops).tuner.root.get q = some (.mk (some cs) w v) ∧
        ∃ m, cs[i]? = some m ∧ (∀ m' ∈ cs, m'.wins ≤ m.wins) ∧ ∀ (j : Nat) m', j < i → cs[j]? = some m' → m'.wins < m.wins := by
  have hi := (run_inv h limit scaled0 ops).tree.uniform
  generalize (Sys.run c limit scaled0 ops).tuner.root = root at *
  refine walk_spec (Good := fun _ cs i => ∃ m, cs[i]? = some m ∧ (∀ m' ∈ cs, m'.wins ≤ m.wins) ∧
    ∀ (j : Nat) m', j < i → cs[j]? = some m' → m'.wins < m.wins) ?_ h.bf 0 root hi
  intro d v cs hne
  obtain ⟨m, hm, h1, h2⟩ := chooseGreedy_spec hne
  exact ⟨(List.getElem?_eq_some_iff.1 hm).1, m, hm, h1, h2⟩

theorem through_split (sims : List (List Nat × Bool)) (p : List Nat) (bf : Nat)
    (h : ∀ s ∈ sims, ∀ i ∈ s.1, i < bf) :
    through p sims = sims.countP (fun s => s.1 = p) + ((List.range bf).map (fun i => through (p ++ [i]) sims)).sum := by
  unfold through
  induction sims with
  | nil => simp
  | cons s sims ih =>
    have ih := ih (fun s' hs' => h s' (List.mem_cons_of_mem _ hs'))
    have hs := h s List.mem_cons_self
    simp only [List.countP_cons]
    have hsum : ((List.range bf).map (fun i => sims.countP (fun s => (p ++ [i]).isPrefixOf s.1) +
        if (p ++ [i]).isPrefixOf s.1 = true then 1 else 0)).sum
        = ((List.range bf).map (fun i => sims.countP (fun s => (p ++ [i]).isPrefixOf s.1))).sum +
          ((List.range bf).map (fun i => if (p ++ [i]).isPrefixOf s.1 = true then 1 else 0)).sum := by
      generalize List.range bf = r
      induction r with
      | nil => rfl
      | cons a r ihr => simp only [List.map_cons, List.sum_cons, ihr]; omega
    rw [hsum]
    have hone : (if p.isPrefixOf s.1 = true then 1 else 0) = (if decide (s.1 = p) = true then 1 else 0) +
        ((List.range bf).map (fun i => if (p ++ [i]).isPrefixOf s.1 = true then 1 else 0)).sum := by
      have hz : ∀ (r : List Nat) (f : Nat → Nat), (∀ i ∈ r, f i = 0) → (r.map f).sum = 0 := by
        intro r f hf
        induction r with
        | nil => rfl
        | cons a r ihr =>
          simp only [List.map_cons, List.sum_cons, hf a List.mem_cons_self,
            ihr (fun i hi => hf i (List.mem_cons_of_mem _ hi))]
      by_cases hp : p <+: s.1
      · obtain ⟨t, ht⟩ := hp
        have hpre : p.isPrefixOf s.1 = true := List.isPrefixOf_iff_prefix.2 ⟨t, ht⟩
        rw [if_pos hpre]
        cases t with
        | nil =>
          have hsp : s.1 = p := by simpa using ht.symm
          rw [if_pos (by simpa using hsp), hz]
          intro i _
          rw [if_neg]
          intro hh
          have := (List.isPrefixOf_iff_prefix.1 hh).length_le
          rw [hsp] at this
          simp at this
        | cons j t =>
          have hsp : s.1 ≠ p := by
            intro hh
            have := congrArg List.length (ht.trans hh)
            simp at this
          rw [if_neg (by simpa using hsp)]
          have hj : j < bf := hs j (by rw [← ht]; simp)
          have heq : ∀ i, (p ++ [i]).isPrefixOf s.1 = true ↔ i = j := by
            intro i
            rw [List.isPrefixOf_iff_prefix, ← ht, List.prefix_append_right_inj]
            simp [List.cons_prefix_cons]
          simp only [heq]
          have : ∀ n, j < n → ((List.range n).map (fun i => if i = j then 1 else 0)).sum = 1 := by
            intro n
            induction n with
            | zero => intro hn; omega
            | succ n ihn =>
              intro hn
              rw [List.range_succ, List.map_append, List.sum_append]
              by_cases hnj : j < n
              · rw [ihn hnj]; simp; omega
              · have : j = n := by omega
                subst this
                rw [hz]
                · simp
                · intro i hi
                  rw [if_neg]
                  have := List.mem_range.1 hi
                  omega
          rw [this bf hj]
      · have hpre : ¬ p.isPrefixOf s.1 = true := fun hh => hp (List.isPrefixOf_iff_prefix.1 hh)
        rw [if_neg hpre, if_neg, hz]
        · intro i _
          rw [if_neg]
          intro hh
          exact hp ((List.prefix_append p [i]).trans (List.isPrefixOf_iff_prefix.1 hh))
        · simp only [decide_eq_true_eq]
          rintro hh
          exact hp (by rw [hh]; exact List.prefix_rfl)
    rw [ih, hone]
    omega

/-- **C43** (visits of the children).  The visits a node has had are those of its children and those of the simulations which
ended at it (before it was expanded, or because they were in progress at that moment).  The visits of the root are
all those of its children. -/
theorem C43_children {c : Config} (h : c.Ok) (limit : Option Int) (scaled0 : α) (ops : List TOp) {p : List Nat}
    {cs : List Node} {w v : Nat} (hn : (Sys.run c limit scaled0 ops).tuner.root.get p = some (.mk (some cs) w v)) :
    v - c.initialVisits = (completed (Sys.run c limit scaled0 ops).log).countP (fun s => s.1 = p) +
      (cs.map (fun m => m.visits - c.initialVisits)).sum ∧
    (p = [] → v - c.initialVisits = (cs.map (fun m => m.visits - c.initialVisits)).sum) := by
  have hi := (run_inv h limit scaled0 ops).tree
  generalize Sys.run c limit scaled0 ops = s at *
  have hlen : cs.length = branchingFactor c.splits := hi.uniform p _ hn _ rfl
  have hsim : ∀ x ∈ completed s.log, ∀ i ∈ x.1, i < branchingFactor c.splits :=
    fun x hx => get_lt hi.uniform (hi.paths x hx).1
  have hv := (hi.stats p _ hn).1
  simp only [Node.visits] at hv
  have hsplit := through_split (completed s.log) p _ hsim
  have hcs : cs.map (fun m => m.visits - c.initialVisits)
      = (List.range (branchingFactor c.splits)).map (fun i => through (p ++ [i]) (completed s.log)) := by
    apply List.ext_getElem
    · simp [hlen]
    · intro i h1 h2
      simp only [List.getElem_map, List.getElem_range]
      have h3 : i < cs.length := by simpa using h1
      have hg : s.tuner.root.get (p ++ [i]) = some cs[i] := by
        rw [get_append, hn]; simp [Node.get, h3]
      have := (hi.stats _ _ hg).1
      omega
  rw [hcs]
  refine ⟨by omega, ?_⟩
  intro hp
  have : (completed s.log).countP (fun x => x.1 = p) = 0 := by
    rw [List.countP_eq_zero]
    intro x hx
    have := (hi.paths x hx).2
    simpa [hp] using this
  omega

/-- **C49** (when the tuner stops).  The failure of a game which is in progress stops the competition if and only if the
last game to end in this run failed too, or no game has ended yet.  (Otherwise the failed game is forgotten.) -/
theorem C49_halt {c : Config} (h : c.Ok) (limit : Option Int) (scaled0 : α) (ops : List TOp) {n : Nat}
    (hn : running n (Sys.run c limit scaled0 ops).log ≠ none) :
    ((Sys.run c limit scaled0 ops).tuner.processError n).1 = .ok (!lastSucceeded (Sys.run c limit scaled0 ops).log) := by
  have hi := run_inv h limit scaled0 ops
  generalize Sys.run c limit scaled0 ops = s at *
  obtain ⟨p, hp⟩ := Option.ne_none_iff_exists'.1 hn
  obtain ⟨_, _, hmem⟩ := hi.tree.current n p hp
  have hl : s.tuner.outstanding.lookup n = some p := by rw [hi.out, hp]
  unfold Tuner.processError
  simp only [fix_ok hmem, hl, hi.halt]

/-! ### A concrete case -/

/-- Two dimensions, the tree two generations deep. -/
def sampleConfig : Config := ⟨[2, 3], 2, 10, 5, fun _ w v => (w : Rat) / v⟩

theorem sampleConfig_ok : sampleConfig.Ok := ⟨by decide, by decide⟩

def sampleOps : List TOp :=
  [.getGame (fun _ => 0) (fun _ => true), .getGame (fun _ => 4) (fun _ => true), .result 0 true, .error 1,
   .getGame (fun _ => 3) (fun _ => true), .save, .result 2 false, .restart, .getGame (fun _ => 1) (fun _ => true)]

/-- Game 0 was won; game 1 failed; game 2 went to the same node, which was expanded, and was lost; but the program was
restarted before that was saved, and the game is being played again. -/
example : (Sys.run sampleConfig none () sampleOps).log =
    [.issued 2 [0, 1], .restarted, .issued 2 [0, 3], .failed 1, .finished 0 true, .issued 1 [4], .issued 0 [0]] := by
  decide +kernel

example : ((Sys.run sampleConfig none () sampleOps).tuner.root.get [0]).map (fun n => (n.wins, n.visits)) = some (6, 11) := by
  decide +kernel

end Gomill.Mcts
