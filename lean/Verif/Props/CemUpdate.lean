import Verif.Model.Cem
import Verif.Spec.Cem
import Mathlib.Algebra.BigOperators.Group.List.Basic
import Mathlib.Algebra.Order.Field.Rat
import Mathlib.Tactic.Linarith
import Mathlib.Tactic.Ring
import Mathlib.Tactic.FieldSimp
/-
C65: the new distribution of a cross-entropy tuner.
-/
namespace Gomill.Cem
open Py CemSpec

theorem sum_sq_dev (v : List Rat) (m : Rat) :
    (v.map (fun x => (x - m) * (x - m))).sum = (v.map (fun x => x * x)).sum - 2 * m * v.sum + v.length * (m * m) := by
  induction v with
  | nil => simp
  | cons a v ih => simp only [List.map_cons, List.sum_cons, ih, List.length_cons]; push_cast; ring

/-- The program's formula for the variance is right. -/
theorem variance_eq {v : List Rat} (h : v ≠ []) :
    variance v = (v.map (fun x => x * x)).sum / v.length - mean v * mean v := by
  have hn : (v.length : Rat) ≠ 0 := by
    have := List.length_pos_of_ne_nil h
    exact_mod_cast (by omega : v.length ≠ 0)
  unfold variance
  rw [mean, sum_sq_dev, List.length_map]
  unfold mean
  field_simp
  ring

theorem sum_nonneg' {v : List Rat} (h : ∀ x ∈ v, 0 ≤ x) : 0 ≤ v.sum := by
  induction v with
  | nil => simp
  | cons a v ih =>
    rw [List.sum_cons]
    have := h a (by simp)
    have := ih (fun x hx => h x (by simp [hx]))
    linarith

theorem variance_nonneg (v : List Rat) : 0 ≤ variance v := by
  unfold variance
  rw [mean]
  apply div_nonneg
  · apply sum_nonneg'
    intro x hx
    obtain ⟨y, _, rfl⟩ := List.mem_map.1 hx
    exact mul_self_nonneg _
  · exact_mod_cast Nat.zero_le _

theorem column_ok {elites : List (List Rat)} {i : Nat} (h : ∀ e ∈ elites, i < e.length) :
    column elites i = .ok (elites.map (fun e => e.getD i 0)) := by
  induction elites with
  | nil => rfl
  | cons e es ih =>
    have h0 : e[i]? = some (e.getD i 0) := by
      have := h e (by simp)
      simp [List.getD, this]
    have := ih (fun x hx => h x (by simp [hx]))
    unfold column at this ⊢
    rw [List.mapM_cons, h0, this]
    rfl

theorem updateLoop_ok {elites : List (List Rat)} (step : Rat) : ∀ (d : Dist) (i : Nat), (∀ e ∈ elites, i + d.length ≤ e.length) →
    ∃ d', updateLoop elites step i d = .ok d' ∧ d'.length = d.length ∧
      ∀ k p, d[k]? = some p → d'[k]? = some (updateDimension (elites.map (fun e => e.getD (i + k) 0)) p step)
  | [], i, _ => ⟨[], rfl, rfl, by intro k p h; simp at h⟩
  | old :: rest, i, h => by
    obtain ⟨d', hd, hl, hk⟩ := updateLoop_ok step rest (i + 1) (fun e he => by have := h e he; simp at this; omega)
    refine ⟨updateDimension (elites.map (fun e => e.getD i 0)) old step :: d', ?_, by simp [hl], ?_⟩
    · unfold updateLoop
      rw [column_ok (fun e he => by have := h e he; simp at this; omega), hd]
      rfl
    · intro k p hp
      cases k with
      | zero => simp at hp; simp [hp]
      | succ k =>
        simp only [List.getElem?_cons_succ] at hp ⊢
        rw [hk k p hp, show i + 1 + k = i + (k + 1) by omega]

/-- The new distribution: in each dimension, the new mean is between the old mean and the mean of the elite's parameters, and the new variance is
between the old variance and the variance of the elite's parameters, the fraction of the way being the step size. The new variances aren't
negative (so that it is a distribution). -/
theorem C65_update (d : Dist) (elites : List (List Rat)) (step : Rat) (hd : d ≠ []) (hne : elites ≠ []) (hdim : ∀ e ∈ elites, e.length = d.length)
    (hstep : 0 < step ∧ step < 1) (hvar : ∀ p ∈ d, 0 ≤ p.2) :
    ∃ d', updateDistribution d elites step = .ok d' ∧ d'.length = d.length ∧
      ∀ (k : Nat) (m v : Rat), d[k]? = some (m, v) → ∃ m' v', d'[k]? = some (m', v') ∧
        m' = m + step * (mean (elites.map (fun e => e.getD k 0)) - m) ∧
        v' = v + step * (variance (elites.map (fun e => e.getD k 0)) - v) ∧ 0 ≤ v' := by
  obtain ⟨d', hd', hl, hk⟩ := updateLoop_ok (elites := elites) step d 0 (fun e he => by rw [hdim e he]; omega)
  have key : ∀ (k : Nat) (m v : Rat), d[k]? = some (m, v) → ∃ m' v', d'[k]? = some (m', v') ∧
        m' = m + step * (mean (elites.map (fun e => e.getD k 0)) - m) ∧
        v' = v + step * (variance (elites.map (fun e => e.getD k 0)) - v) ∧ 0 ≤ v' := by
    intro k m v hmv
    have h1 := hk k _ hmv
    rw [Nat.zero_add] at h1
    refine ⟨_, _, h1, ?_, ?_, ?_⟩
    · unfold mean; ring
    · rw [variance_eq (by simpa using hne)]
      unfold mean; ring
    · have e1 : ∀ w : List Rat, w ≠ [] → (w.map (fun x => x * x)).sum / (w.length : Rat) - w.sum / w.length * (w.sum / w.length) = variance w := by
        intro w hw; rw [variance_eq hw]; rfl
      show 0 ≤ _ * step + v * (1 - step)
      rw [e1 _ (by simpa using hne)]
      have h2 := variance_nonneg (elites.map (fun e => e.getD k 0))
      have h3 : 0 ≤ v := hvar (m, v) (List.mem_of_getElem? hmv)
      have := mul_nonneg h2 hstep.1.le
      have := mul_nonneg h3 (by linarith [hstep.2] : 0 ≤ 1 - step)
      linarith
  refine ⟨d', ?_, hl, key⟩
  unfold updateDistribution
  rw [hd']
  have hd'ne : d' ≠ [] := by
    intro h; rw [h] at hl; exact hd (List.length_eq_zero_iff.1 hl.symm)
  show makeDistribution d' = _
  unfold makeDistribution
  rw [if_neg hd'ne, if_neg]
  intro hany
  obtain ⟨p, hp, hlt⟩ := List.any_eq_true.1 hany
  obtain ⟨k, hkl, hke⟩ := List.mem_iff_getElem.1 hp
  have hkd : k < d.length := hl ▸ hkl
  obtain ⟨m', v', h1, _, _, h4⟩ := key k d[k].1 d[k].2 (List.getElem?_eq_getElem hkd)
  rw [List.getElem?_eq_getElem hkl, hke] at h1
  have : p = (m', v') := Option.some.inj h1
  rw [this] at hlt
  have hlt' : v' < 0 := by simpa using hlt
  linarith

/-! ### The elite -/

theorem pairGreater_iff {a b : Rat × Nat} : pairGreater a b = true ↔ b.1 < a.1 ∨ (a.1 = b.1 ∧ b.2 < a.2) := by
  simp [pairGreater]

theorem pairGreater_trans {a b c : Rat × Nat} (h1 : pairGreater a b = true) (h2 : pairGreater b c = true) : pairGreater a c = true := by
  rw [pairGreater_iff] at *
  rcases h1 with h1 | ⟨h1, h1'⟩ <;> rcases h2 with h2 | ⟨h2, h2'⟩
  · exact .inl (h2.trans h1)
  · exact .inl (h2 ▸ h1)
  · exact .inl (h1 ▸ h2)
  · exact .inr ⟨h1.trans h2, by omega⟩

theorem pairGreater_total {a b : Rat × Nat} (h : a.2 ≠ b.2) : pairGreater a b = true ∨ pairGreater b a = true := by
  rw [pairGreater_iff, pairGreater_iff]
  rcases lt_trichotomy a.1 b.1 with h1 | h1 | h1
  · exact .inr (.inl h1)
  · rcases Nat.lt_or_ge a.2 b.2 with h2 | h2
    · exact .inr (.inr ⟨h1.symm, h2⟩)
    · exact .inl (.inr ⟨h1, by omega⟩)
  · exact .inl (.inl h1)

theorem insertPair_perm (a : Rat × Nat) : ∀ l, (insertPair a l).Perm (a :: l)
  | [] => List.Perm.refl _
  | b :: l => by
    unfold insertPair
    split
    · exact ((insertPair_perm a l).cons b).trans (List.Perm.swap a b l)
    · exact List.Perm.refl _

theorem sortPairs_perm : ∀ l, (sortPairs l).Perm l
  | [] => List.Perm.refl _
  | a :: l => (insertPair_perm a _).trans ((sortPairs_perm l).cons a)

theorem insertPair_sorted {a : Rat × Nat} : ∀ {l : List (Rat × Nat)}, l.Pairwise (fun x y => pairGreater x y = true) → (∀ b ∈ l, b.2 ≠ a.2) →
    (insertPair a l).Pairwise (fun x y => pairGreater x y = true)
  | [], _, _ => by simp [insertPair]
  | b :: l, h, hne => by
    obtain ⟨h1, h2⟩ := List.pairwise_cons.1 h
    unfold insertPair
    by_cases hg : pairGreater b a = true
    · rw [if_pos hg]
      refine List.pairwise_cons.2 ⟨?_, insertPair_sorted h2 (fun x hx => hne x (by simp [hx]))⟩
      intro x hx
      rcases List.mem_cons.1 ((insertPair_perm a l).mem_iff.1 hx) with rfl | hx
      · exact hg
      · exact h1 x hx
    · rw [if_neg hg]
      have hab : pairGreater a b = true := by
        rcases pairGreater_total (hne b (by simp)) with h | h
        · exact absurd h hg
        · exact h
      refine List.pairwise_cons.2 ⟨?_, h⟩
      intro x hx
      rcases List.mem_cons.1 hx with rfl | hx
      · exact hab
      · exact pairGreater_trans hab (h1 x hx)

theorem sortPairs_sorted : ∀ {l : List (Rat × Nat)}, (l.map (·.2)).Nodup → (sortPairs l).Pairwise (fun x y => pairGreater x y = true)
  | [], _ => by simp [sortPairs]
  | a :: l, h => by
    rw [List.map_cons, List.nodup_cons] at h
    refine insertPair_sorted (sortPairs_sorted h.2) ?_
    intro b hb he
    exact h.1 (List.mem_map.2 ⟨b, (sortPairs_perm l).mem_iff.1 hb, he⟩)

theorem zipIdx_snd (l : List Rat) : l.zipIdx.map (·.2) = List.range l.length := by
  simp [List.range_eq_range']

theorem mem_sorter {wins : List Rat} {p : Rat × Nat} : p ∈ sorter wins ↔ wins[p.2]? = some p.1 := by
  unfold sorter
  rw [(sortPairs_perm _).mem_iff]
  exact List.mk_mem_zipIdx_iff_getElem? (x := p.1) (i := p.2)

theorem sorter_length (wins : List Rat) : (sorter wins).length = wins.length := by
  unfold sorter
  rw [(sortPairs_perm _).length_eq, List.length_zipIdx]

theorem sorter_nodup (wins : List Rat) : ((sorter wins).map (·.2)).Nodup := by
  unfold sorter
  rw [((sortPairs_perm _).map _).nodup_iff, zipIdx_snd]
  exact List.nodup_range

/-- The candidates chosen are the best ones. -/
theorem C65_best (wins : List Rat) (k : Nat) (hk : k ≤ wins.length) : Best wins k (((sorter wins).take k).map (·.2)) where
  count := by simp [sorter_length, hk]
  nodup := by
    have := sorter_nodup wins
    rw [List.map_take]
    exact this.sublist (List.take_sublist _ _)
  valid := by
    intro a ha
    obtain ⟨p, hp, rfl⟩ := List.mem_map.1 ha
    have := mem_sorter.1 (List.mem_of_mem_take hp)
    exact (List.getElem?_eq_some_iff.1 this).1
  best := by
    intro a ha b hb hnb wa wb hwa hwb
    obtain ⟨p, hp, rfl⟩ := List.mem_map.1 ha
    have h1 := mem_sorter.1 (List.mem_of_mem_take hp)
    rw [h1] at hwa
    cases hwa
    have hq : (wb, b) ∈ sorter wins := mem_sorter.2 hwb
    rw [← List.take_append_drop k (sorter wins), List.mem_append] at hq
    rcases hq with hq | hq
    · exact absurd (List.mem_map.2 ⟨_, hq, rfl⟩) hnb
    · have hs := sortPairs_sorted (l := wins.zipIdx) (by rw [zipIdx_snd]; exact List.nodup_range)
      have hs' : (sorter wins).Pairwise (fun x y => pairGreater x y = true) := hs
      rw [← List.take_append_drop k (sorter wins), List.pairwise_append] at hs'
      have := hs'.2.2 p hp _ hq
      rw [pairGreater_iff] at this
      rcases this with h | ⟨h, h'⟩
      · exact .inl h
      · exact .inr ⟨h.symm, h'⟩

/-- The number of elite candidates is the given proportion of the candidates, rounded, but at least one; there are that many candidates. -/
theorem C65_elite_count (c : Config) (hs : 1 ≤ c.samples) (he : 0 < c.elite ∧ c.elite < 1) :
    Rounded (c.elite * c.samples) (eliteCount c) ∧ eliteCount c ≤ c.samples := by
  have hs' : (1 : Rat) ≤ c.samples := by exact_mod_cast hs
  have hpos : 0 < c.elite * c.samples := mul_pos he.1 (by linarith)
  have hlt : c.elite * c.samples < c.samples := by
    have := mul_lt_mul_of_pos_right he.2 (by linarith : (0 : Rat) < c.samples)
    linarith
  have ht : Mcts.truncate (c.elite * c.samples + 1 / 2) = (c.elite * c.samples + 1 / 2).floor := by
    unfold Mcts.truncate; rw [if_pos (by linarith)]
  unfold eliteCount
  rw [ht]
  generalize c.elite * c.samples = q at *
  have h1 : ((q + 1 / 2).floor : Rat) ≤ q + 1 / 2 := Rat.floor_le _
  have h2 : q + 1 / 2 < ((q + 1 / 2).floor : Rat) + 1 := by
    have := Rat.lt_floor (x := q + 1 / 2)
    linarith
  generalize (q + 1 / 2).floor = f at *
  have hf0 : 0 ≤ f := by
    by_contra hneg
    have : f ≤ -1 := by omega
    have : (f : Rat) ≤ -1 := by exact_mod_cast this
    linarith
  obtain ⟨n, rfl⟩ := Int.eq_ofNat_of_zero_le hf0
  simp only [Int.toNat_natCast]
  have h1' : (n : Rat) ≤ q + 1 / 2 := by exact_mod_cast h1
  have h2' : q + 1 / 2 < (n : Rat) + 1 := by exact_mod_cast h2
  refine ⟨⟨by omega, ?_⟩, ?_⟩
  · rcases Nat.eq_zero_or_pos n with rfl | hn
    · left; exact ⟨by simp at h2'; linarith, rfl⟩
    · right
      rw [Nat.max_eq_right hn]
      exact ⟨by linarith, by linarith⟩
  · have : (n : Rat) < c.samples + 1 := by linarith
    have : n < c.samples + 1 := by exact_mod_cast this
    omega

/-- With two dimensions and two elite samples; and the best two of four candidates, two of which have the same number of wins. -/
theorem C65_witness :
    updateDistribution [(0, 4), (10, 1)] [[2, 10], [4, 16]] (1 / 2) = .ok [(3 / 2, 5 / 2), (23 / 2, 5)] ∧
    ((sorter [1, 3 / 2, 3 / 2, 0]).take 2).map (·.2) = [2, 1] ∧ ((sorter [1, 3 / 2, 1, 0]).take 2).map (·.2) = [1, 2] ∧
    [(1 : Rat) / 4, 3 / 8, 1 / 9].map (fun q => eliteCount ⟨[], 4, 1, 1, q, 1 / 2, none, []⟩) = [1, 2, 1] := by
  refine ⟨by decide +kernel, by decide +kernel, by decide +kernel, by decide +kernel⟩

end Gomill.Cem
