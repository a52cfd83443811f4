import Verif.Props.Mcts
import Verif.Model.LogScale
/-
C48: the scale functions LINEAR, LOG and EXPLICIT for the parameters of the MCTS tuner.
-/
namespace Gomill.Mcts
open Py MctsSpec

theorem truncate_of_nonneg {q : Rat} (h : 0 ≤ q) : truncate q = ⌊q⌋ := by
  unfold truncate; rw [if_pos h]; rfl

theorem truncate_of_neg {q : Rat} (h : q < 0) : truncate q = ⌈q⌉ := by
  unfold truncate
  rw [if_neg (not_le.2 h)]
  rw [Rat.ceil_eq_neg_floor_neg]
  rfl

theorem truncate_nat {q : Rat} {k : Nat} (h1 : (k : Rat) ≤ q) (h2 : q < k + 1) : truncate q = k := by
  rw [truncate_of_nonneg (le_trans (by exact_mod_cast Nat.zero_le k) h1), Int.floor_eq_iff]
  exact ⟨by exact_mod_cast h1, by exact_mod_cast h2⟩

/-! ### EXPLICIT -/

theorem explicit_get {β : Type} {values : List β} {f : Rat} {k : Nat} (hk : k < values.length)
    (h1 : (k : Rat) ≤ values.length * f) (h2 : values.length * f < k + 1) : explicitScale values f = .ok values[k] := by
  unfold explicitScale getItem
  rw [truncate_nat h1 h2]
  have : normIndex values.length (k : Int) = some k := by
    unfold normIndex
    simp [hk]
  rw [this]
  simp [hk]

/-- **C48** (EXPLICIT, in range).  With a nonempty list of values, an optimiser parameter in the range 0..1 (not 1 itself)
always gives one of the values: the range is divided into equal parts, one for each value, in order. -/
theorem C48_explicit {β : Type} {values : List β} (hv : values ≠ []) {f : Rat} (h0 : 0 ≤ f) (h1 : f < 1) :
    ∃ k, ∃ hk : k < values.length, explicitScale values f = .ok values[k] ∧
      (k : Rat) / values.length ≤ f ∧ f < (k + 1) / values.length := by
  have hn : (0 : Rat) < values.length := by exact_mod_cast List.length_pos_iff.2 hv
  have hp : 0 ≤ values.length * f := mul_nonneg (le_of_lt hn) h0
  have hf1 := Nat.floor_le hp
  have hf2 := Nat.lt_floor_add_one ((values.length : Rat) * f)
  have hk : ⌊(values.length : Rat) * f⌋₊ < values.length := by
    rw [Nat.floor_lt hp]
    nlinarith
  refine ⟨⌊(values.length : Rat) * f⌋₊, hk, explicit_get hk hf1 hf2, ?_, ?_⟩
  · rw [div_le_iff₀ hn]; linarith
  · rw [lt_div_iff₀ hn]; linarith

/-- In each dimension the lower corner of a cell is a multiple of the breadth. -/
theorem cellLo_grid {splits : List Nat} (h : ∀ s ∈ splits, 0 < s) (path : List Nat) {d s : Nat} (hd : splits[d]? = some s) :
    ∃ m, m < s ^ path.length ∧ (cellLo splits path)[d]? = some ((m : Rat) / (s : Rat) ^ path.length) := by
  induction path with
  | nil =>
    have hlt := (List.getElem?_eq_some_iff.1 hd).1
    exact ⟨0, by simp, by simp [cellLo, hlt]⟩
  | cons i p ih =>
    obtain ⟨m, hm, hlo⟩ := ih
    have hc := isCoord_coordinates h i
    rw [cellLo]
    have hsp : 0 < s := h s (List.mem_of_getElem? hd)
    have hs : (0 : Rat) < s := by exact_mod_cast hsp
    generalize cellLo splits p = lo at hlo
    generalize coordinates splits i = c at hc
    have key : ∀ (ss c : List Nat) (lo : List Rat) (d : Nat), IsCoord ss c → ss[d]? = some s →
        ∀ q, lo[d]? = some q → ∃ k, k < s ∧ (place ss c lo)[d]? = some ((k + q) / s) := by
      intro ss
      induction ss with
      | nil => intro c lo d _ h; simp at h
      | cons t ss ihs =>
        intro c lo d hc hd q hq
        cases c with
        | nil => exact absurd hc (by simp [IsCoord])
        | cons c cs =>
        cases lo with
        | nil => simp at hq
        | cons l ls =>
          cases d with
          | zero =>
            simp only [List.getElem?_cons_zero, Option.some.injEq] at hd hq
            subst hd hq
            exact ⟨c, hc.1, by simp [place]⟩
          | succ d =>
            simp only [List.getElem?_cons_succ] at hd hq
            obtain ⟨k, hk, he⟩ := ihs cs ls d hc.2 hd q hq
            exact ⟨k, hk, by simpa [place] using he⟩
    obtain ⟨k, hk, he⟩ := key splits c lo d hc hd _ hlo
    refine ⟨k * s ^ p.length + m, ?_, ?_⟩
    · have : (k + 1) * s ^ p.length ≤ s * s ^ p.length := Nat.mul_le_mul_right _ hk
      have h2 : (k + 1) * s ^ p.length = k * s ^ p.length + s ^ p.length := by ring
      simp only [List.length_cons, Nat.pow_succ']
      omega
    · rw [he]
      congr 1
      push_cast
      have hpow : (0 : Rat) < (s : Rat) ^ p.length := by positivity
      simp only [List.length_cons, pow_succ]
      field_simp

/-- **C48** (the values a dimension takes).  In a dimension with split `s` the parameters for paths of length `k` are the
centres of the `s ^ k` equal parts of the range 0..1; if there are as many values in an EXPLICIT list then the `m`th part gives
the `m`th value. -/
theorem C48_explicit_paths {β : Type} {splits : List Nat} (h : ∀ s ∈ splits, 0 < s) {path : List Nat}
    (hp : ∀ i ∈ path, i < product splits) {d s : Nat} (hd : splits[d]? = some s) :
    ∃ ps q m, parametersForPath splits path = .ok ps ∧ ps[d]? = some q ∧ m < s ^ path.length ∧
      q = (m + 1 / 2) / (s : Rat) ^ path.length ∧
      ∀ values : List β, values.length = s ^ path.length → ∃ v, values[m]? = some v ∧ explicitScale values q = .ok v := by
  obtain ⟨m, hm, hlo⟩ := cellLo_grid h path hd
  have hs : (0 : Rat) < s := by exact_mod_cast h s (List.mem_of_getElem? hd)
  have hpow : (0 : Rat) < (s : Rat) ^ path.length := by positivity
  refine ⟨_, (m + 1 / 2) / (s : Rat) ^ path.length, m, parametersForPath_eq h hp, ?_, hm, rfl, ?_⟩
  · unfold centre breadth
    rw [List.getElem?_zipWith, hlo, List.getElem?_map, hd]
    simp only [Option.map_some, Option.some.injEq]
    field_simp
  · intro values hv
    have hmv : m < values.length := by omega
    refine ⟨values[m], List.getElem?_eq_getElem hmv, explicit_get hmv ?_ ?_⟩
    · rw [hv]; push_cast; rw [mul_div_cancel₀ _ (ne_of_gt hpow)]; linarith
    · rw [hv]; push_cast; rw [mul_div_cancel₀ _ (ne_of_gt hpow)]; linarith

/-- **C48** (EXPLICIT, every value is tried).  If the number of values is the split raised to the power `k` then every value is
given by some path of length `k`. -/
theorem C48_explicit_onto {β : Type} {splits : List Nat} (h : ∀ s ∈ splits, 0 < s) {d s k : Nat} (hd : splits[d]? = some s)
    {values : List β} (hv : values.length = s ^ k) {m : Nat} {v : β} (hm : values[m]? = some v) :
    ∃ path ps q, path.length = k ∧ (∀ i ∈ path, i < product splits) ∧ parametersForPath splits path = .ok ps ∧
      ps[d]? = some q ∧ explicitScale values q = .ok v := by
  have hmlt := (List.getElem?_eq_some_iff.1 hm).1
  have hdl := (List.getElem?_eq_some_iff.1 hd).1
  have hs : (0 : Rat) < s := by exact_mod_cast h s (List.mem_of_getElem? hd)
  have hpow : (0 : Rat) < (s : Rat) ^ k := by positivity
  -- a point whose coordinate in dimension d is in the m'th part
  have hq0 : (0 : Rat) ≤ m / (s : Rat) ^ k := by positivity
  have hq1 : (m : Rat) / (s : Rat) ^ k < 1 := by
    rw [div_lt_one hpow]
    have : m < s ^ k := by omega
    exact_mod_cast this
  have hcube : InCube splits (List.replicate splits.length ((m : Rat) / (s : Rat) ^ k)) := by
    refine ⟨by simp, ?_⟩
    intro q hq
    rw [List.eq_of_mem_replicate hq]
    exact ⟨hq0, hq1⟩
  obtain ⟨path, ⟨hlen, hcell⟩, _⟩ := C42_generation h hcube k
  have hvalid : ∀ (p : List Nat) (x : List Rat), InCell splits p x → ∀ i ∈ p, i < product splits := by
    intro p
    induction p with
    | nil => intro x _ i hi; simp at hi
    | cons j p ih =>
      rintro x ⟨c, y, hc, hj, hy, _⟩ i hi
      rcases List.mem_cons.1 hi with rfl | hi
      · rw [← hj]; exact childIndex_lt hc
      · exact ih y hy i hi
  have hp := hvalid path _ hcell
  obtain ⟨ps, q, m', hps, hq, hm', hqe, hval⟩ := C48_explicit_paths (β := β) h hp hd
  refine ⟨path, ps, q, hlen, hp, hps, hq, ?_⟩
  obtain ⟨v', hv', he⟩ := hval values (by rw [hv, hlen])
  -- the cell's part is the m'th
  have hmm : m' = m := by
    obtain ⟨m2, hm2, hlo⟩ := cellLo_grid h path hd
    have hbox := (inCell_iff h hp _).1 hcell
    have hget : ∀ (lo b x : List Rat) (d : Nat), InBox lo b x → ∀ l, lo[d]? = some l →
        ∃ bb y, b[d]? = some bb ∧ x[d]? = some y ∧ l ≤ y ∧ y < l + bb := by
      intro lo
      induction lo with
      | nil => intro b x d _ l hl; simp at hl
      | cons a lo ih =>
        intro b x d hb l hl
        cases b with
        | nil => exact absurd hb (by simp [InBox])
        | cons b bs =>
        cases x with
        | nil => exact absurd hb (by simp [InBox])
        | cons x xs =>
          simp only [InBox] at hb
          cases d with
          | zero =>
            simp only [List.getElem?_cons_zero, Option.some.injEq] at hl
            subst hl
            exact ⟨b, x, rfl, rfl, hb.1, hb.2.1⟩
          | succ d => exact ih bs xs d hb.2.2 l hl
    obtain ⟨bb, y, hbb, hy, h1, h2⟩ := hget _ _ _ d hbox _ hlo
    have hbb' : bb = 1 / (s : Rat) ^ k := by
      unfold breadth at hbb
      rw [List.getElem?_map, hd, hlen] at hbb
      simpa using hbb.symm
    have hy' : y = (m : Rat) / (s : Rat) ^ k := by
      rw [List.getElem?_replicate, if_pos hdl] at hy
      exact (Option.some.inj hy).symm
    rw [hy', hlen, hbb', ← add_div, div_lt_div_iff_of_pos_right hpow] at h2
    rw [hy', hlen, div_le_div_iff_of_pos_right hpow] at h1
    have e1 : m2 ≤ m := by exact_mod_cast h1
    have e2 : m < m2 + 1 := by exact_mod_cast h2
    -- and the parameter is at its centre
    have hq2 : (centre splits path)[d]? = some (((m2 : Rat) + 1 / 2) / (s : Rat) ^ path.length) := by
      unfold centre breadth
      have hpow' : (0 : Rat) < (s : Rat) ^ path.length := by positivity
      rw [List.getElem?_zipWith, hlo, List.getElem?_map, hd]
      simp only [Option.map_some, Option.some.injEq]
      field_simp
    rw [parametersForPath_eq h hp] at hps
    cases hps
    rw [hq2, hqe] at hq
    have hpow' : (0 : Rat) < (s : Rat) ^ path.length := by positivity
    have := Option.some.inj hq
    rw [div_left_inj' (ne_of_gt hpow')] at this
    have h3 : (m2 : Rat) = m' := by linarith
    have h4 : m2 = m' := by exact_mod_cast h3
    omega
  subst hmm
  rw [hm] at hv'
  cases hv'
  exact he

example : explicitScale ["a", "b", "c"] (1/2) = .ok "b" := by decide +kernel

/-! ### LINEAR -/

/-- **C48** (LINEAR).  The result lies strictly between the bounds, and divides the interval between them as the optimiser
parameter divides the interval from 0 to 1. -/
theorem C48_linear {lower upper f : Rat} (h : lower < upper) (h0 : 0 < f) (h1 : f < 1) :
    lower < linearScale lower upper false f ∧ linearScale lower upper false f < upper ∧
      (linearScale lower upper false f - lower) / (upper - lower) = f := by
  have hd : 0 < upper - lower := by linarith
  simp only [linearScale, Bool.false_eq_true, if_false]
  refine ⟨by nlinarith, by nlinarith, ?_⟩
  rw [div_eq_iff (ne_of_gt hd)]; ring

/-- **C48** (LINEAR with integer=True).  For a lower bound which isn't negative the result is the nearest integer to the exact
one (the greater one if there are two); with integer bounds it doesn't leave them. -/
theorem C48_linear_integer {lower upper f : Rat} (hl : 0 ≤ lower) (h : lower < upper) (h0 : 0 < f) (h1 : f < 1) :
    ∃ k : Int, linearScale lower upper true f = k ∧
      linearScale lower upper false f - 1 / 2 < k ∧ (k : Rat) ≤ linearScale lower upper false f + 1 / 2 ∧
      (∀ a : Int, lower = a → a ≤ k) ∧ (∀ b : Int, upper = b → k ≤ b) := by
  obtain ⟨hlo, hhi, _⟩ := C48_linear h h0 h1
  have he : linearScale lower upper true f = (truncate (linearScale lower upper false f + 1 / 2) : Rat) := rfl
  generalize linearScale lower upper false f = r at *
  have hr : 0 ≤ r + 1 / 2 := by linarith
  rw [truncate_of_nonneg hr] at he
  have f1 := Int.floor_le (r + 1 / 2)
  have f2 := Int.lt_floor_add_one (r + 1 / 2)
  refine ⟨_, he, by linarith, f1, ?_, ?_⟩
  · intro a ha
    rw [Int.le_floor]
    linarith
  · intro b hb
    have : (⌊r + 1 / 2⌋ : Rat) < b + 1 := by linarith
    have : ⌊r + 1 / 2⌋ < b + 1 := by exact_mod_cast this
    omega

/-- What goes wrong for negative bounds: LINEAR(-5, -1, integer=True) can give 0, which isn't between the bounds. -/
theorem C48_linear_negative : linearScale (-5) (-1) true (49/50) = 0 := by decide +kernel

example : linearScale 3 17 true (49/50) = 17 := by decide +kernel

/-! ### LOG -/

theorem logScale_pos {lower upper f : ℝ} (hl : 0 < lower) (h : lower < upper) (h0 : 0 < f) (h1 : f < 1) :
    lower < Real.exp (Real.log (upper / lower) * f) * lower ∧ Real.exp (Real.log (upper / lower) * f) * lower < upper := by
  have hq : 1 < upper / lower := by rw [lt_div_iff₀ hl]; linarith
  have hrate : 0 < Real.log (upper / lower) := Real.log_pos hq
  constructor
  · have : 1 < Real.exp (Real.log (upper / lower) * f) := by
      rw [Real.one_lt_exp_iff]; positivity
    nlinarith
  · have h2 : Real.exp (Real.log (upper / lower) * f) < upper / lower := by
      calc Real.exp (Real.log (upper / lower) * f) < Real.exp (Real.log (upper / lower)) := by
            rw [Real.exp_lt_exp]; nlinarith
        _ = upper / lower := Real.exp_log (by linarith)
    rwa [lt_div_iff₀ hl] at h2

/-- **C48** (LOG).  For positive bounds the result lies strictly between them and its logarithm is what LINEAR would give for
the logarithms of the bounds. -/
theorem C48_log {lower upper f : ℝ} (hl : 0 < lower) (h : lower < upper) (h0 : 0 < f) (h1 : f < 1) :
    ∃ r, logScale lower upper false f = some r ∧ lower < r ∧ r < upper ∧
      Real.log r = f * (Real.log upper - Real.log lower) + Real.log lower := by
  have hu : 0 < upper := lt_trans hl h
  obtain ⟨h2, h3⟩ := logScale_pos hl h h0 h1
  refine ⟨Real.exp (Real.log (upper / lower) * f) * lower, ?_, h2, h3, ?_⟩
  · unfold logScale
    rw [if_neg (ne_of_gt hl), if_neg (not_le.2 (div_pos hu hl))]
    simp
  · rw [Real.log_mul (Real.exp_ne_zero _) (ne_of_gt hl), Real.log_exp, Real.log_div (ne_of_gt hu) (ne_of_gt hl)]
    ring

/-- **C48** (LOG with integer=True).  The nearest integer; with integer bounds it doesn't leave them. -/
theorem C48_log_integer {lower upper f : ℝ} (hl : 0 < lower) (h : lower < upper) (h0 : 0 < f) (h1 : f < 1) :
    ∃ r : ℝ, ∃ k : ℤ, logScale lower upper false f = some r ∧ logScale lower upper true f = some (k : ℝ) ∧
      r - 1 / 2 < k ∧ (k : ℝ) ≤ r + 1 / 2 ∧ (∀ a : ℤ, lower = a → a ≤ k) ∧ (∀ b : ℤ, upper = b → k ≤ b) := by
  have hu : 0 < upper := lt_trans hl h
  obtain ⟨h2, h3⟩ := logScale_pos hl h h0 h1
  have e1 : logScale lower upper false f = some (Real.exp (Real.log (upper / lower) * f) * lower) := by
    unfold logScale
    rw [if_neg (ne_of_gt hl), if_neg (not_le.2 (div_pos hu hl))]
    simp
  have e2 : logScale lower upper true f = some (truncateReal (Real.exp (Real.log (upper / lower) * f) * lower + 1 / 2) : ℝ) := by
    unfold logScale
    rw [if_neg (ne_of_gt hl), if_neg (not_le.2 (div_pos hu hl))]
    simp
  generalize Real.exp (Real.log (upper / lower) * f) * lower = r at *
  have htr : truncateReal (r + 1 / 2) = ⌊r + 1 / 2⌋ := by
    unfold truncateReal; rw [if_pos (by linarith)]
  rw [htr] at e2
  have f1 := Int.floor_le (r + 1 / 2)
  have f2 := Int.lt_floor_add_one (r + 1 / 2)
  refine ⟨r, _, e1, e2, by linarith, f1, ?_, ?_⟩
  · intro a ha
    rw [Int.le_floor]
    linarith
  · intro b hb
    have : ((⌊r + 1 / 2⌋ : ℤ) : ℝ) < ((b + 1 : ℤ) : ℝ) := by push_cast; linarith
    have : ⌊r + 1 / 2⌋ < b + 1 := by exact_mod_cast this
    omega

/-- **C48** (LOG, bad bounds).  A zero lower bound, or bounds of different signs, are refused when the scale is made. -/
theorem C48_log_bad {lower upper : ℝ} (h : lower = 0 ∨ upper / lower ≤ 0) (integer : Bool) (f : ℝ) :
    logScale lower upper integer f = none := by
  unfold logScale
  rcases h with h | h
  · rw [if_pos h]
  · rw [if_pos h]; simp

/-- Halfway between 1 and 100, on the logarithmic scale, is 10. -/
example : logScale 1 100 false (1 / 2) = some 10 := by
  have h : Real.log 100 = 2 * Real.log 10 := by
    rw [show (100 : ℝ) = 10 ^ 2 by norm_num, Real.log_pow]; norm_num
  unfold logScale
  rw [if_neg (by norm_num), if_neg (by norm_num)]
  simp only [Bool.false_eq_true, if_false, div_one, mul_one, Option.some.injEq]
  rw [h, show 2 * Real.log 10 * (1 / 2) = Real.log 10 by ring, Real.exp_log (by norm_num)]

end Gomill.Mcts
