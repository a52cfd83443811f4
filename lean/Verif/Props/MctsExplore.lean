import Verif.Spec.MctsExplore
import Verif.Props.MctsTuner
/-
C93: the MCTS tuner explores the whole of the parameter space.
-/
namespace Gomill.Mcts
open Py Sched MctsSpec
open MctsSpec (Ev)
open Filter

/-! ### The formula -/

theorem bonus_grows {coef : ℝ} (hc : 0 < coef) (M : ℝ) (B : Nat) : ∃ V0 : Nat, ∀ V, V0 ≤ V → ∀ n, 1 ≤ n → n < B →
    M < coef * √(Real.log V) * (√(1 / (n : ℝ)) - √(1 / ((n : ℝ) + 1))) := by
  have key : ∀ n : Nat, 1 ≤ n → ∀ᶠ V : Nat in atTop, M < coef * √(Real.log V) * (√(1 / (n : ℝ)) - √(1 / ((n : ℝ) + 1))) := by
    intro n hn
    have hn' : (0 : ℝ) < n := by exact_mod_cast hn
    have hd : 0 < √(1 / (n : ℝ)) - √(1 / ((n : ℝ) + 1)) := by
      rw [sub_pos]
      apply Real.sqrt_lt_sqrt (by positivity)
      exact one_div_lt_one_div_of_lt hn' (by linarith)
    have h1 : Tendsto (fun V : Nat => √(Real.log V)) atTop atTop :=
      Real.tendsto_sqrt_atTop.comp (Real.tendsto_log_atTop.comp tendsto_natCast_atTop_atTop)
    have h2 := (h1.const_mul_atTop hc).atTop_mul_const hd
    exact h2.eventually_gt_atTop M
  have h : ∀ᶠ V : Nat in atTop, ∀ n ∈ Finset.Ico 1 B, M < coef * √(Real.log V) * (√(1 / (n : ℝ)) - √(1 / ((n : ℝ) + 1))) := by
    rw [eventually_all_finset]
    intro n hn
    exact key n (Finset.mem_Ico.1 hn).1
  obtain ⟨V0, hV⟩ := eventually_atTop.1 h
  exact ⟨V0, fun V hv n h1 h2 => hV V hv n (Finset.mem_Ico.2 ⟨h1, h2⟩)⟩

/-- When the parent has many visits, a child with few visits is more urgent than any with more. -/
theorem urgency_rule {urgency : Nat → Nat → Nat → Rat} {coef δ : ℝ} (hu : NearUct urgency coef δ) (hc : 0 < coef) (B W : Nat) :
    ∃ V0 : Nat, ∀ V, V0 ≤ V → ∀ wi ni wj nj, 1 ≤ ni → ni < B → ni < nj → wj ≤ nj + W → urgency V wj nj < urgency V wi ni := by
  obtain ⟨V0, h⟩ := bonus_grows hc (1 + W + 2 * δ) B
  refine ⟨V0, fun V hV wi ni wj nj h1 h2 h3 h4 => ?_⟩
  have hb := h V hV ni h1 h2
  have ei := abs_le.1 (hu V wi ni (by omega))
  have ej := abs_le.1 (hu V wj nj (by omega))
  have hni : (0 : ℝ) < ni := by exact_mod_cast h1
  have hnj : (1 : ℝ) ≤ nj := by exact_mod_cast (show 1 ≤ nj by omega)
  have hvi : (0 : ℝ) ≤ (wi : ℝ) / ni := by positivity
  have hvj : (wj : ℝ) / nj ≤ 1 + W := by
    rw [div_le_iff₀ (by linarith)]
    have h5 : (wj : ℝ) ≤ nj + W := by exact_mod_cast h4
    have h6 : (0 : ℝ) ≤ W := by positivity
    nlinarith
  have hs : √(1 / (nj : ℝ)) ≤ √(1 / ((ni : ℝ) + 1)) := by
    apply Real.sqrt_le_sqrt
    apply one_div_le_one_div_of_le (by linarith)
    exact_mod_cast h3
  have hk : 0 ≤ coef * √(Real.log V) := by positivity
  have hs2 := mul_le_mul_of_nonneg_left hs hk
  have : ((urgency V wj nj : Rat) : ℝ) < ((urgency V wi ni : Rat) : ℝ) := by
    unfold uct at ei ej
    rw [mul_sub] at hb
    linarith [ei.1, ej.2]
  exact_mod_cast this

/-! ### Histories -/

def Legit (c : Config) (log : List Ev) (path : List Nat) : Prop :=
  Choice (branchingFactor c.splits) c.maxDepth c.initialVisits c.initialWins c.urgency log path

theorem run_end (c : Config) (hbf : 0 < branchingFactor c.splits) (starts : Nat → Nat) {root : Node} (hu : Uniform (branchingFactor c.splits) root) :
    c.maxDepth ≤ (c.run starts root).1.length ∨ ∃ n, (c.run starts root).2.get (c.run starts root).1 = some n ∧ n.visits = c.initialVisits := by
  obtain ⟨⟨w, v, hleaf⟩, _⟩ := walk_spec (goodChoice_choose c starts) hbf 0 root hu
  unfold Config.run
  simp only [hleaf]
  generalize root.walk (fun depth => c.choose (starts depth)) 0 = p at *
  by_cases hcond : p.length < c.maxDepth ∧ c.isRipe (.mk none w v)
  · rw [if_pos hcond]
    right
    have hne : c.newChildren ≠ [] := by
      intro h
      have := congrArg List.length h
      simp [Config.newChildren] at this
      omega
    obtain ⟨n, hn, _⟩ := choose_spec c (starts p.length) v hne
    have hv : (Node.mk none w v).visits = v := rfl
    rw [hv]
    have hilt : c.choose (starts p.length) v c.newChildren < branchingFactor c.splits := by
      have := (List.getElem?_eq_some_iff.1 hn).1
      simpa [Config.newChildren] using this
    exact ⟨_, get_expanded_child c hilt hleaf, rfl⟩
  · rw [if_neg hcond]
    by_cases h1 : p.length < c.maxDepth
    · right
      refine ⟨_, hleaf, ?_⟩
      have h2 : ¬ c.isRipe (.mk none w v) = true := fun h => hcond ⟨h1, h⟩
      simpa [Config.isRipe] using h2
    · left; show c.maxDepth ≤ p.length; omega

/-- The path a simulation takes is the one prescribed. -/
theorem run_legit {c : Config} (h : c.Ok) {limit sch root log} (hi : TreeInv c limit sch root log)
    (hlt : ∀ k, limit = some k → sch.issued < k) (starts : Nat → Nat) : Legit c log (c.run starts root).1 := by
  have hr := run_spec h.bf starts hi.uniform
  obtain ⟨h1, _⟩ := tree_run h hi hlt starts
  have he := run_end c h.bf starts hi.uniform
  obtain ⟨w, v, hleaf⟩ := hr.leaf
  have hdep := h1.depth _ (show ((c.run starts root).2.get (c.run starts root).1).isSome by rw [hleaf]; rfl)
  refine ⟨?_, get_lt hr.uniform (by rw [hleaf]; rfl), hdep, ?_, ?_⟩
  · rcases hr.expanded with he | he
    · exact he
    · rw [hi.expanded] at he; cases he
  · intro q j hq i hib
    obtain ⟨cs, w', v', hget, n, hn, hle⟩ := hr.choice q j hq
    have hlen : cs.length = branchingFactor c.splits := h1.uniform q _ hget _ rfl
    have hi' : i < cs.length := by omega
    have hgi : (c.run starts root).2.get (q ++ [i]) = some cs[i] := by rw [get_append, hget]; simp [Node.get, hi']
    have hgj : (c.run starts root).2.get (q ++ [j]) = some n := by rw [get_append, hget]; simp [Node.get, hn]
    have s1 := h1.stats _ _ hgi
    have s2 := h1.stats _ _ hgj
    have s0 := (h1.stats _ _ hget).1
    have := hle cs[i] (List.getElem_mem _)
    rw [s1.1, s1.2, s2.1, s2.2] at this
    simp only [Node.visits] at s0
    rw [s0] at this
    exact this
  · rcases he with he | ⟨n, hn, hv⟩
    · left; omega
    · right
      have := (h1.stats _ _ hn).1
      omega

/-- What can have happened. -/
inductive History (c : Config) : List Ev → Prop
  | nil : History c []
  | issued {l : List Ev} {n : Nat} {p : List Nat} (hl : History c l) (hp : Legit c l p) : History c (.issued n p :: l)
  | finished {l : List Ev} {n : Nat} {won : Bool} (hl : History c l) (hr : running n l ≠ none) : History c (.finished n won :: l)
  | failed {l : List Ev} {n : Nat} (hl : History c l) : History c (.failed n :: l)
  | restarted {l : List Ev} (hl : History c l) : History c (.restarted :: l)

variable {α : Type} [DecidableEq α]

theorem step_history {c : Config} (h : c.Ok) {limit : Option Int} {scaled0 : α} {s : Sys α} (hi : SysInv c limit scaled0 s)
    (hh : History c s.log ∧ History c s.savedLog) (op : TOp) :
    History c (s.step c limit scaled0 op).log ∧ History c (s.step c limit scaled0 op).savedLog := by
  cases op with
  | save => exact ⟨hh.1, hh.1⟩
  | restart =>
    simp only [Sys.step, load_saved h hi.savedTree hi.path0]
    exact ⟨.restarted hh.2, hh.2⟩
  | result n won =>
    simp only [Sys.step]
    by_cases hr : running n s.log = none
    · rw [if_pos hr]; exact hh
    · rw [if_neg hr]
      cases hx : s.tuner.processResult n won with
      | mk x t => cases x <;> simp only <;> first | exact hh | exact ⟨.finished hh.1 hr, hh.2⟩
  | error n =>
    simp only [Sys.step]
    by_cases hr : running n s.log = none
    · rw [if_pos hr]; exact hh
    · rw [if_neg hr]
      cases hx : s.tuner.processError n with
      | mk x t => cases x <;> simp only <;> first | exact hh | exact ⟨.failed hh.1, hh.2⟩
  | getGame starts makeOk =>
    simp only [Sys.step]
    by_cases hlt : ∀ k, limit = some k → s.tuner.scheduler.issued < k
    · have hp := run_legit h hi.tree hlt starts
      cases hx : s.tuner.getGame c limit starts makeOk with
      | mk x t =>
        cases x with
        | error e => exact hh
        | ok r =>
          cases r with
          | none => exact hh
          | some r => exact ⟨.issued hh.1 hp, hh.2⟩
    · obtain ⟨k, hk⟩ := not_forall.1 hlt
      obtain ⟨hk, hle⟩ := Classical.not_imp.1 hk
      subst hk
      rw [C43_get_game_none starts makeOk (by omega)]
      exact hh

theorem run_history {c : Config} (h : c.Ok) (limit : Option Int) (scaled0 : α) (ops : List TOp) :
    History c (Sys.run c limit scaled0 ops).log ∧ History c (Sys.run c limit scaled0 ops).savedLog := by
  have key : ∀ (ops : List TOp) (s : Sys α), SysInv c limit scaled0 s → History c s.log ∧ History c s.savedLog →
      History c (ops.foldl (Sys.step c limit scaled0) s).log ∧ History c (ops.foldl (Sys.step c limit scaled0) s).savedLog := by
    intro ops
    induction ops with
    | nil => intro s _ hh; exact hh
    | cons op ops ih => intro s hi hh; exact ih _ (step_inv h hi op) (step_history h hi hh op)
  exact key ops _ (run_inv h limit scaled0 []) ⟨.nil, .nil⟩

/-! ### Counting -/

theorem mem_inProgress {n : Nat} {p : List Nat} : ∀ {l : List Ev}, running n l = some p → (n, p) ∈ inProgress l := by
  intro l
  induction l with
  | nil => intro h; simp [running] at h
  | cons e l ih =>
    intro h
    cases e with
    | issued m q =>
      simp only [running] at h
      by_cases hm : m = n
      · subst hm; rw [if_pos rfl] at h; cases h; simp [inProgress]
      · rw [if_neg hm] at h
        simp only [inProgress, List.mem_cons, List.mem_filter]
        exact Or.inr ⟨ih h, by simpa using fun h => hm h.symm⟩
    | finished m _ =>
      simp only [running] at h
      by_cases hm : m = n
      · rw [if_pos hm] at h; cases h
      · rw [if_neg hm] at h
        simp only [inProgress, List.mem_filter]
        exact ⟨ih h, by simpa using fun h => hm h.symm⟩
    | failed m =>
      simp only [running] at h
      by_cases hm : m = n
      · rw [if_pos hm] at h; cases h
      · rw [if_neg hm] at h
        simp only [inProgress, List.mem_filter]
        exact ⟨ih h, by simpa using fun h => hm h.symm⟩
    | restarted => simp [running] at h

/-- Removing a game from those in progress. -/
theorem countP_remove (f : List Nat → Bool) {n : Nat} {p : List Nat} : ∀ {l : List (Nat × List Nat)}, (n, p) ∈ l →
    (l.filter (fun g => g.1 ≠ n)).countP (fun g => f g.2) + (if f p then 1 else 0) ≤ l.countP (fun g => f g.2) := by
  intro l
  induction l with
  | nil => intro h; cases h
  | cons g l ih =>
    intro h
    by_cases hg : g = (n, p)
    · subst hg
      have h1 : (l.filter (fun g => g.1 ≠ n)).countP (fun g => f g.2) ≤ l.countP (fun g => f g.2) := (List.filter_sublist).countP_le
      rw [List.filter_cons_of_neg (by simp), List.countP_cons]
      simp only
      omega
    · have hm : (n, p) ∈ l := by
        rcases List.mem_cons.1 h with h | h
        · exact absurd h.symm hg
        · exact h
      have := ih hm
      rw [List.countP_cons, List.filter_cons]
      split
      · rw [List.countP_cons]; omega
      · omega

theorem countP_removed (f : List Nat → Bool) (n : Nat) (l : List (Nat × List Nat)) :
    (l.filter (fun g => g.1 ≠ n)).countP (fun g => f g.2) ≤ l.countP (fun g => f g.2) := (List.filter_sublist).countP_le

/-- A count of simulations, completed and in progress, is bounded, if new ones are only added while few are completed. -/
theorem count_bound {c : Config} (f : List Nat → Bool) (L A : Nat) (P : List Ev → Prop) (hP : ∀ e l, P (e :: l) → P l)
    (hnew : ∀ l p, History c l → P l → Legit c l p → f p = true → (completed l).countP (fun s => f s.1) ≤ A) :
    ∀ {log : List Ev}, History c log → P log → AtMost L log →
      (completed log).countP (fun s => f s.1) + (inProgress log).countP (fun g => f g.2) ≤ A + L := by
  intro log hh
  induction hh with
  | nil => intro _ _; simp [completed, inProgress]
  | @issued l n p hl hp ih =>
    intro hp' hm
    have ih := ih (hP _ _ hp') (fun l' h' => hm l' (h'.trans (List.suffix_cons _ _)))
    by_cases hf : f p = true
    · have h1 := hnew l p hl (hP _ _ hp') hp hf
      have h2 : (inProgress (.issued n p :: l)).countP (fun g => f g.2) ≤ (inProgress (.issued n p :: l)).length := List.countP_le_length
      have h3 := hm _ List.suffix_rfl
      have h4 : completed (.issued n p :: l) = completed l := rfl
      rw [h4]
      omega
    · have h1 := countP_removed f n (inProgress l)
      have h4 : completed (.issued n p :: l) = completed l := rfl
      rw [h4, inProgress, List.countP_cons]
      simp only [hf, Bool.false_eq_true, if_false]
      omega
  | @finished l n won hl hr ih =>
    intro hp' hm
    have ih := ih (hP _ _ hp') (fun l' h' => hm l' (h'.trans (List.suffix_cons _ _)))
    obtain ⟨p, hp⟩ := Option.ne_none_iff_exists'.1 hr
    have h1 := countP_remove f (mem_inProgress hp)
    simp only [completed, hp, inProgress, List.countP_cons]
    omega
  | @failed l n hl ih =>
    intro hp' hm
    have ih := ih (hP _ _ hp') (fun l' h' => hm l' (h'.trans (List.suffix_cons _ _)))
    have h1 := countP_removed f n (inProgress l)
    simp only [completed, inProgress]
    omega
  | @restarted l hl ih =>
    intro hp' hm
    have ih := ih (hP _ _ hp') (fun l' h' => hm l' (h'.trans (List.suffix_cons _ _)))
    simp only [completed, inProgress, List.countP_nil]
    omega

theorem completed_cons (e : Ev) (l : List Ev) : completed l <:+ completed (e :: l) := by
  cases e with
  | finished n won =>
    simp only [completed]
    split
    · exact List.suffix_cons _ _
    · exact List.suffix_rfl
  | issued => exact List.suffix_rfl
  | failed => exact List.suffix_rfl
  | restarted => exact List.suffix_rfl

theorem history_paths {c : Config} {log : List Ev} (hh : History c log) :
    (∀ s ∈ completed log, ∀ i ∈ s.1, i < branchingFactor c.splits) ∧ ∀ n p, running n log = some p → ∀ i ∈ p, i < branchingFactor c.splits := by
  induction hh with
  | nil => exact ⟨by simp [completed], by simp [running]⟩
  | @issued l n p hl hp ih =>
    refine ⟨ih.1, ?_⟩
    intro m q hq
    simp only [running] at hq
    split at hq
    · cases hq; exact hp.range
    · exact ih.2 m q hq
  | @finished l n won hl hr ih =>
    obtain ⟨p, hp⟩ := Option.ne_none_iff_exists'.1 hr
    refine ⟨?_, ?_⟩
    · intro s hs
      simp only [completed, hp, List.mem_cons] at hs
      rcases hs with rfl | hs
      · exact ih.2 n p hp
      · exact ih.1 s hs
    · intro m q hq
      simp only [running] at hq
      split at hq
      · cases hq
      · exact ih.2 m q hq
  | @failed l n hl ih =>
    refine ⟨ih.1, ?_⟩
    intro m q hq
    simp only [running] at hq
    split at hq
    · cases hq
    · exact ih.2 m q hq
  | restarted hl ih => exact ⟨ih.1, by simp [running]⟩

theorem wonThrough_le (p : List Nat) (sims : List (List Nat × Bool)) : wonThrough p sims ≤ through p sims := by
  apply List.countP_mono_left
  intro s _ hs
  simp only [Bool.and_eq_true] at hs
  exact hs.1

theorem through_prefix (p q : List Nat) (h : p <+: q) (sims : List (List Nat × Bool)) : through q sims ≤ through p sims := by
  apply List.countP_mono_left
  intro s _ hs
  rw [List.isPrefixOf_iff_prefix] at hs ⊢
  exact h.trans hs

/-- A node with many visits has children all of which have at least so many. -/
theorem children_explored {c : Config} {coef δ : ℝ} (hu : NearUct c.urgency coef δ) (hc : 0 < coef) (hv : 1 ≤ c.initialVisits) (L N : Nat) :
    ∃ R, ∀ log, History c log → AtMost L log → ∀ q i, q.length < c.maxDepth → i < branchingFactor c.splits →
      R ≤ through q (completed log) → N ≤ through (q ++ [i]) (completed log) := by
  obtain ⟨V0, hV⟩ := urgency_rule hu hc (c.initialVisits + N) c.initialWins
  refine ⟨L + branchingFactor c.splits * (max N V0 + L) + 1, ?_⟩
  intro log hh hm q i hq hi hR
  by_contra hN
  have hN : through (q ++ [i]) (completed log) < N := by omega
  -- those which end at the node
  have h0 := count_bound (c := c) (fun p => decide (p = q)) L 0 (fun _ => True) (fun _ _ _ => trivial) (by
    intro l p _ _ hp hf
    have hf : p = q := by simpa using hf
    subst hf
    have := hp.ends
    have h1 : through p (completed l) = 0 := by
      rcases this with h | h
      · omega
      · exact h
    have h2 : (completed l).countP (fun s => decide (s.1 = p)) ≤ through p (completed l) := by
      apply List.countP_mono_left
      intro s _ hs
      rw [List.isPrefixOf_iff_prefix, of_decide_eq_true hs]
    omega) hh trivial hm
  -- those which go to a child
  have h1 : ∀ j, j < branchingFactor c.splits → through (q ++ [j]) (completed log) ≤ max N V0 + L := by
    intro j hj
    have := count_bound (c := c) (fun p => (q ++ [j]).isPrefixOf p) L (max N V0) (fun l => through (q ++ [i]) (completed l) < N)
      (by
        intro e l hl
        exact Nat.lt_of_le_of_lt ((completed_cons e l).sublist.countP_le) hl)
      (by
        intro l p _ hPl hp hf
        have hf : q ++ [j] <+: p := List.isPrefixOf_iff_prefix.1 hf
        have hb := hp.best q j hf i hi
        have ht : (completed l).countP (fun s => (q ++ [j]).isPrefixOf s.1) = through (q ++ [j]) (completed l) := rfl
        rw [ht]
        by_cases hVl : V0 ≤ c.initialVisits + through q (completed l)
        · by_contra hcon
          have hlt : through (q ++ [i]) (completed l) < through (q ++ [j]) (completed l) := by omega
          have hw := wonThrough_le (q ++ [j]) (completed l)
          have := hV _ hVl (c.initialWins + wonThrough (q ++ [i]) (completed l)) (c.initialVisits + through (q ++ [i]) (completed l))
            (c.initialWins + wonThrough (q ++ [j]) (completed l)) (c.initialVisits + through (q ++ [j]) (completed l))
            (by omega) (by omega) (by omega) (by omega)
          exact absurd hb (not_le.2 this)
        · have := through_prefix q (q ++ [j]) (List.prefix_append _ _) (completed l)
          omega) hh hN hm
    have ht : (completed log).countP (fun s => (q ++ [j]).isPrefixOf s.1) = through (q ++ [j]) (completed log) := rfl
    rw [ht] at this
    omega
  have h2 := through_split (completed log) q _ (history_paths hh).1
  have h3 : ((List.range (branchingFactor c.splits)).map (fun i => through (q ++ [i]) (completed log))).sum ≤ branchingFactor c.splits * (max N V0 + L) := by
    have : ∀ (r : List Nat) (f : Nat → Nat) (b : Nat), (∀ j ∈ r, f j ≤ b) → (r.map f).sum ≤ r.length * b := by
      intro r f b hr
      induction r with
      | nil => simp
      | cons a r ih =>
        have h5 := ih (fun j hj => hr j (List.mem_cons_of_mem _ hj))
        have h6 := hr a List.mem_cons_self
        simp only [List.map_cons, List.sum_cons, List.length_cons, Nat.succ_mul]
        omega
    have h4 := this (List.range (branchingFactor c.splits)) (fun i => through (q ++ [i]) (completed log)) (max N V0 + L)
      (fun j hj => h1 j (List.mem_range.1 hj))
    rwa [List.length_range] at h4
  omega

/-- After enough simulations, every node of a generation has had so many. -/
theorem generation_explored {c : Config} {coef δ : ℝ} (hu : NearUct c.urgency coef δ) (hc : 0 < coef) (hv : 1 ≤ c.initialVisits) (L : Nat) :
    ∀ d N, d ≤ c.maxDepth → ∃ R, ∀ log, History c log → AtMost L log → R ≤ (completed log).length →
      ∀ p, p.length = d → (∀ i ∈ p, i < branchingFactor c.splits) → N ≤ through p (completed log) := by
  intro d
  induction d with
  | zero =>
    intro N _
    refine ⟨N, fun log _ _ hR p hp _ => ?_⟩
    have := List.eq_nil_of_length_eq_zero hp
    subst this
    have : through [] (completed log) = (completed log).length := by
      unfold through
      rw [List.countP_eq_length]
      intro s _; rfl
    omega
  | succ d ih =>
    intro N hd
    obtain ⟨R1, h1⟩ := children_explored hu hc hv L N
    obtain ⟨R2, h2⟩ := ih R1 (by omega)
    refine ⟨R2, fun log hh hm hR p hp hr => ?_⟩
    obtain ⟨q, i, rfl⟩ : ∃ q i, p = q ++ [i] := by
      have hne : p ≠ [] := by rintro rfl; simp at hp
      exact ⟨p.dropLast, p.getLast hne, (List.dropLast_append_getLast hne).symm⟩
    simp only [List.length_append, List.length_singleton] at hp
    exact h1 log hh hm q i (by omega) (hr i (by simp)) (h2 log hh hm hR q (by omega) (fun j hj => hr j (by simp [hj])))

/-! ### The properties -/

/-- **C93** (choice).  Whatever has happened, the path of a simulation is chosen as prescribed, from what happened before. -/
theorem C93_choice {c : Config} (h : c.Ok) (limit : Option Int) (scaled0 : α) (ops : List TOp) (starts : Nat → Nat) (makeOk : List Rat → Bool)
    {n : Nat} {path : List Nat}
    (hs : ((Sys.run c limit scaled0 ops).step c limit scaled0 (.getGame starts makeOk)).log = .issued n path :: (Sys.run c limit scaled0 ops).log) :
    Choice (product c.splits) c.maxDepth c.initialVisits c.initialWins c.urgency (Sys.run c limit scaled0 ops).log path := by
  have hi := run_inv h limit scaled0 ops
  have := (step_history h hi (run_history h limit scaled0 ops) (.getGame starts makeOk)).1
  rw [hs] at this
  rw [← branchingFactor_eq]
  cases this with
  | issued _ hp => exact hp

/-- **C93** (exploration).  If the urgencies are those of UCT with a positive coefficient, but for an error which is bounded, then for any numbers `workers` and `N`
there's a number of games such that, once so many have had a result, every node there can be in the tree is there and has had at least `N` visits: however the
games went, whatever random numbers were used, in whatever order games were given out and results reported (with no more than `workers` at the same time),
with any failures, and with any restarts of the program. -/
theorem C93_explores {c : Config} (h : c.Ok) {coef δ : ℝ} (hu : NearUct c.urgency coef δ) (hc : 0 < coef) (hv : 1 ≤ c.initialVisits) (workers N : Nat) :
    ∃ games : Nat, ∀ (limit : Option Int) (scaled0 : α) (ops : List TOp), AtMost workers (Sys.run c limit scaled0 ops).log →
      games ≤ (completed (Sys.run c limit scaled0 ops).log).length →
      ∀ p : List Nat, p.length ≤ c.maxDepth → (∀ i ∈ p, i < product c.splits) →
        N ≤ through p (completed (Sys.run c limit scaled0 ops).log) ∧
        ∃ n, (Sys.run c limit scaled0 ops).tuner.root.get p = some n ∧ c.initialVisits + N ≤ n.visits := by
  have hall : ∀ D, D ≤ c.maxDepth → ∃ R, ∀ log, History c log → AtMost workers log → R ≤ (completed log).length →
      ∀ p, p.length ≤ D → (∀ i ∈ p, i < branchingFactor c.splits) → max N 1 ≤ through p (completed log) := by
    intro D
    induction D with
    | zero =>
      intro hd
      obtain ⟨R, hR⟩ := generation_explored hu hc hv workers 0 (max N 1) hd
      exact ⟨R, fun log h1 h2 h3 p hp => hR log h1 h2 h3 p (by omega)⟩
    | succ D ih =>
      intro hd
      obtain ⟨R1, h1⟩ := ih (by omega)
      obtain ⟨R2, h2⟩ := generation_explored hu hc hv workers (D + 1) (max N 1) hd
      refine ⟨max R1 R2, fun log a1 a2 a3 p hp hr => ?_⟩
      by_cases hpd : p.length ≤ D
      · exact h1 log a1 a2 (by omega) p hpd hr
      · exact h2 log a1 a2 (by omega) p (by omega) hr
  obtain ⟨R, hR⟩ := hall c.maxDepth (Nat.le_refl _)
  refine ⟨R, fun limit scaled0 ops hm hg p hp hr => ?_⟩
  rw [← branchingFactor_eq] at hr
  have h1 := hR _ (run_history h limit scaled0 ops).1 hm hg p hp hr
  have hi := (run_inv h limit scaled0 ops).tree
  refine ⟨by omega, ?_⟩
  have hpos : 0 < through p (completed (Sys.run c limit scaled0 ops).log) := by omega
  obtain ⟨s, hs, hpre⟩ := List.countP_pos_iff.1 hpos
  obtain ⟨t, ht⟩ := List.isPrefixOf_iff_prefix.1 hpre
  have hsome := (hi.paths s hs).1
  rw [← ht, get_append] at hsome
  cases hg : (Sys.run c limit scaled0 ops).tuner.root.get p with
  | none => rw [hg] at hsome; cases hsome
  | some n => exact ⟨n, rfl, by have := (hi.stats p n hg).1; omega⟩

/-- **C93** (no part of the parameter space is neglected).  ... and so at least `N` of the completed games were played with parameters from the same smallest cell as
any given point of the parameter space. -/
theorem C93_space {c : Config} (h : c.Ok) {coef δ : ℝ} (hu : NearUct c.urgency coef δ) (hc : 0 < coef) (hv : 1 ≤ c.initialVisits) (workers N : Nat) :
    ∃ games : Nat, ∀ (limit : Option Int) (scaled0 : α) (ops : List TOp), AtMost workers (Sys.run c limit scaled0 ops).log →
      games ≤ (completed (Sys.run c limit scaled0 ops).log).length →
      ∀ x, InCube c.splits x → ∃ cell : List Nat, cell.length = c.maxDepth ∧ InCell c.splits cell x ∧
        ∃ sims : List (List Nat × Bool), sims.Sublist (completed (Sys.run c limit scaled0 ops).log) ∧ sims.length = N ∧
          ∀ s ∈ sims, ∃ ps, parametersForPath c.splits s.1 = .ok ps ∧ InCell c.splits cell ps := by
  obtain ⟨games, hg⟩ := C93_explores (α := α) h hu hc hv workers N
  refine ⟨games, fun limit scaled0 ops hm hn x hx => ?_⟩
  obtain ⟨cell, ⟨hlen, hcell⟩, _⟩ := C42_generation h.splits hx c.maxDepth
  have hrange : ∀ i ∈ cell, i < product c.splits := by
    have : ∀ (p : List Nat) (x : List Rat), InCell c.splits p x → ∀ i ∈ p, i < product c.splits := by
      intro p
      induction p with
      | nil => intro x _ i hi; cases hi
      | cons a p ih =>
        rintro x ⟨co, y, h1, h2, h3, _⟩ i hi
        rcases List.mem_cons.1 hi with rfl | hi
        · rw [← h2]; exact childIndex_lt h1
        · exact ih y h3 i hi
    exact this cell x hcell
  have hth := (hg limit scaled0 ops hm hn cell (by omega) hrange).1
  have hi := (run_inv h limit scaled0 ops).tree
  generalize hl : (Sys.run c limit scaled0 ops).log = log at *
  refine ⟨cell, hlen, hcell, ((completed log).filter (fun s => cell.isPrefixOf s.1)).take N, (List.take_sublist _ _).trans List.filter_sublist, ?_, ?_⟩
  · rw [List.length_take, ← List.countP_eq_length_filter]
    exact Nat.min_eq_left hth
  · intro s hs
    have hs := List.mem_filter.1 (List.mem_of_mem_take hs)
    have hpre := List.isPrefixOf_iff_prefix.1 hs.2
    have hsome := (hi.paths s hs.1).1
    have hle := hi.depth _ hsome
    have heq : s.1 = cell := (hpre.eq_of_length (by have := hpre.length_le; omega)).symm
    rw [heq]
    obtain ⟨ps, hps, _, hin, _⟩ := C42_inside h.splits hrange
    exact ⟨ps, hps, hin⟩

/-! ### Witnesses -/

/-- For any coefficient and any error bound there are urgencies which are near enough to those of UCT. -/
theorem C93_near (coef : ℝ) {δ : ℝ} (hδ : 0 < δ) : ∃ urgency, NearUct urgency coef δ := by
  have : ∀ v w n : Nat, ∃ q : Rat, |(q : ℝ) - uct coef v w n| ≤ δ := by
    intro v w n
    obtain ⟨q, h1, h2⟩ := exists_rat_btwn (show uct coef v w n < uct coef v w n + δ by linarith)
    exact ⟨q, by rw [abs_le]; constructor <;> linarith⟩
  choose f hf using this
  exact ⟨f, fun v w n _ => hf v w n⟩

/-- Two parameters, the first with two splits and the second with three; depth 2; the exploration coefficient is 0.45 and the urgencies are right within 10⁻⁹;
then every one of the 36 cells gets 100 games, sooner or later. -/
example : ∃ (c : Config), c.Ok ∧ c.splits = [2, 3] ∧ c.maxDepth = 2 ∧ ∃ games : Nat, ∀ (limit : Option Int) (ops : List TOp), AtMost 4 (Sys.run c limit () ops).log →
    games ≤ (completed (Sys.run c limit () ops).log).length → 100 ≤ through [5, 3] (completed (Sys.run c limit () ops).log) := by
  obtain ⟨u, hu⟩ := C93_near (45 / 100) (δ := 1 / 1000000000) (by norm_num)
  have hok : (⟨[2, 3], 2, 10, 5, u⟩ : Config).Ok := ⟨by simp, by simp⟩
  obtain ⟨games, hg⟩ := C93_explores (α := Unit) hok hu (by norm_num) (by simp) 4 100
  exact ⟨_, hok, rfl, rfl, games, fun limit ops h1 h2 => (hg limit () ops h1 h2 [5, 3] (by simp) (by simp [product])).1⟩

/-- No exploration: the urgency of a child is its win rate. -/
def greedyConfig : Config := ⟨[2], 1, 10, 5, fun _ w n => (w : Rat) / n⟩

/-- `k` games, one after another, all of them won. -/
def winning : Nat → List TOp
  | 0 => []
  | k + 1 => winning k ++ [.getGame (fun _ => 0) (fun _ => true), .result k true]

/-- The state after `winning k`. -/
def winningLog : Nat → List Ev
  | 0 => []
  | k + 1 => .finished k true :: .issued k [0] :: winningLog k

theorem winning_run (k : Nat) : Sys.run greedyConfig none () (winning k) =
    ⟨⟨⟨k, [], [], k, k⟩, .mk (some [.mk none (5 + k) (10 + k), .mk none 5 10]) (5 + k) (10 + k), [], decide (k = 0)⟩, winningLog k, (Tuner.clean greedyConfig).save (), []⟩ := by
  induction k with
  | zero => rfl
  | succ k ih =>
    have hnl : ¬ ((((5 + k : Nat) : Rat) / ((10 + k : Nat) : Rat)) < ((5 : Nat) : Rat) / ((10 : Nat) : Rat)) := by
      rw [not_lt, div_le_div_iff₀ (by norm_num) (by positivity)]
      push_cast; nlinarith [(Nat.cast_nonneg k : (0 : Rat) ≤ k)]
    have hch : greedyConfig.choose 0 (10 + k) [.mk none (5 + k) (10 + k), .mk none 5 10] = 0 := by
      have : maxBy (fun p : Node × Nat => greedyConfig.urgency (10 + k) p.1.wins p.1.visits) [(.mk none (5 + k) (10 + k), 0), (.mk none 5 10, 1)] =
          some (.mk none (5 + k) (10 + k), 0) := congrArg some (if_neg hnl)
      simp only [Config.choose, List.zipIdx, Nat.zero_mod, List.drop_zero, List.take_zero, List.append_nil, Nat.zero_add, this]
    have hrun : greedyConfig.run (fun _ => 0) (.mk (some [.mk none (5 + k) (10 + k), .mk none 5 10]) (5 + k) (10 + k)) =
        ([0], .mk (some [.mk none (5 + k) (10 + k), .mk none 5 10]) (5 + k) (10 + k)) := by
      have hd : ¬ (1 < greedyConfig.maxDepth) := by simp [greedyConfig]
      simp [Config.run, Node.walk, Node.walkIn, hch, Node.get, hd]
    have hps : (parametersForPath greedyConfig.splits [0]).isOk = true := by decide +kernel
    cases hp : parametersForPath greedyConfig.splits [0] with
    | error e => rw [hp] at hps; cases hps
    | ok ps =>
      simp only [winning, Sys.run, List.foldl_append, List.foldl]
      rw [show List.foldl (Sys.step greedyConfig none ()) (Sys.init greedyConfig ()) (winning k) = _ from ih]
      simp [Sys.step, Tuner.getGame, Tuner.getGame.play, hrun, hp, Sched.Simple.issue, Tuner.processResult, Sched.Simple.fix, running, winningLog,
        Py.setAdd, Py.setRemove, updateStats, countPath, Node.count, Bind.bind, Except.bind, Pure.pure, Except.pure]
      omega

/-- **C93** (the coefficient does matter).  If the urgencies were the win rates, there would be runs of any length, one game at a time, in which half of the parameter
space is never tried. -/
theorem C93_needs_coefficient : greedyConfig.Ok ∧ ∀ k, AtMost 1 (Sys.run greedyConfig none () (winning k)).log ∧
    (completed (Sys.run greedyConfig none () (winning k)).log).length = k ∧ through [1] (completed (Sys.run greedyConfig none () (winning k)).log) = 0 := by
  refine ⟨⟨by simp [greedyConfig], by simp [greedyConfig]⟩, fun k => ?_⟩
  rw [winning_run]
  have hin : ∀ k, inProgress (winningLog k) = [] := by
    intro k
    induction k with
    | zero => rfl
    | succ k ih => simp [winningLog, inProgress, ih]
  refine ⟨?_, ?_, ?_⟩
  · show AtMost 1 (winningLog k)
    induction k with
    | zero => intro l hl; rw [List.suffix_nil.1 hl]; simp [inProgress]
    | succ k ih =>
      intro l hl
      simp only [winningLog, List.suffix_cons_iff] at hl
      rcases hl with rfl | rfl | hl
      · simp [inProgress, hin]
      · simp [inProgress, hin]
      · exact ih l hl
  · show (completed (winningLog k)).length = k
    induction k with
    | zero => rfl
    | succ k ih => simp [winningLog, completed, running, ih]
  · show through [1] (completed (winningLog k)) = 0
    induction k with
    | zero => rfl
    | succ k ih =>
      simp only [winningLog, completed, running, if_true]
      simpa [through, List.isPrefixOf] using ih

end Gomill.Mcts
