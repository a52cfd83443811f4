import Verif.Model.Mcts
import Verif.Spec.Mcts
import Verif.Lemmas.Schedulers
import Mathlib.Tactic.Linarith
import Mathlib.Tactic.Ring
import Mathlib.Tactic.FieldSimp
import Mathlib.Algebra.Order.Field.Rat
import Mathlib.Algebra.Order.Floor.Semiring
import Mathlib.Data.Rat.Floor
/-
C42: the cells of the MCTS tuner's parameter space.
-/
namespace Gomill.Mcts
open Py MctsSpec

/-! ### Coordinates -/

theorem foldl_mul_eq (l : List Nat) : ∀ a, l.foldl (· * ·) a = a * product l := by
  induction l with
  | nil => intro a; simp [product]
  | cons b l ih => intro a; rw [List.foldl_cons, ih, product, Nat.mul_assoc]

theorem branchingFactor_eq (splits : List Nat) : branchingFactor splits = product splits := by
  cases splits with
  | nil => rfl
  | cons s l => exact foldl_mul_eq l s

theorem product_append (a b : List Nat) : product (a ++ b) = product a * product b := by
  induction a with
  | nil => simp [product]
  | cons s a ih => simp only [List.cons_append, product, ih, Nat.mul_assoc]

theorem coordLoop_append (a b : List Nat) : ∀ i,
    coordLoop (a ++ b) i = coordLoop a i ++ coordLoop b (i / product a) := by
  induction a with
  | nil => intro i; simp [product, coordLoop]
  | cons s a ih =>
    intro i
    simp only [List.cons_append, coordLoop, ih, product, Nat.div_div_eq_div_mul]

theorem product_reverse (a : List Nat) : product a.reverse = product a := by
  induction a with
  | nil => rfl
  | cons s a ih => rw [List.reverse_cons, product_append, ih]; simp [product, Nat.mul_comm]

theorem coordLoop_length (a : List Nat) : ∀ i, (coordLoop a i).length = a.length := by
  induction a with
  | nil => intro i; rfl
  | cons s a ih => intro i; simp [coordLoop, ih]

theorem coordinates_cons (s : Nat) (ss : List Nat) (i : Nat) :
    coordinates (s :: ss) i = (i / product ss % s) :: coordinates ss i := by
  unfold coordinates
  rw [List.reverse_cons, coordLoop_append, product_reverse]
  simp [coordLoop]

/-- `coordinates` sees only the index modulo the number of vectors. -/
theorem coordinates_mod (splits : List Nat) : ∀ i k, coordinates splits (k * product splits + i) = coordinates splits i := by
  induction splits with
  | nil => intro i k; rfl
  | cons s ss ih =>
    intro i k
    rw [coordinates_cons, coordinates_cons]
    have h1 : k * product (s :: ss) + i = (k * s) * product ss + i := by rw [product]; ring
    rw [h1, ih]
    by_cases hp : product ss = 0
    · simp [hp]
    · have : (k * s * product ss + i) / product ss = k * s + i / product ss := by
        rw [Nat.add_comm, Nat.add_mul_div_right _ _ (Nat.pos_of_ne_zero hp), Nat.add_comm]
      rw [this]
      congr 1
      rw [Nat.add_comm, Nat.add_mul_mod_self_right]

theorem product_pos {splits : List Nat} (h : ∀ s ∈ splits, 0 < s) : 0 < product splits := by
  induction splits with
  | nil => decide
  | cons s ss ih =>
    exact Nat.mul_pos (h s List.mem_cons_self) (ih (fun t ht => h t (List.mem_cons_of_mem _ ht)))

theorem isCoord_coordinates {splits : List Nat} (h : ∀ s ∈ splits, 0 < s) (i : Nat) :
    IsCoord splits (coordinates splits i) := by
  induction splits with
  | nil => exact trivial
  | cons s ss ih =>
    rw [coordinates_cons]
    exact ⟨Nat.mod_lt _ (h s List.mem_cons_self), ih (fun t ht => h t (List.mem_cons_of_mem _ ht))⟩

theorem childIndex_lt {splits : List Nat} : ∀ {c}, IsCoord splits c → childIndex splits c < product splits := by
  induction splits with
  | nil => intro c h; cases c <;> simp [childIndex, product]
  | cons s ss ih =>
    intro c h
    cases c with
    | nil => exact absurd h (by simp [IsCoord])
    | cons c cs =>
      have h1 := ih h.2
      have h2 : (c + 1) * product ss ≤ s * product ss := Nat.mul_le_mul_right _ h.1
      simp only [childIndex, product]
      have h3 : (c + 1) * product ss = c * product ss + product ss := by ring
      omega

theorem coordinates_childIndex {splits : List Nat} : ∀ {c}, IsCoord splits c →
    coordinates splits (childIndex splits c) = c := by
  induction splits with
  | nil => intro c h; cases c with
    | nil => rfl
    | cons a b => exact absurd h (by simp [IsCoord])
  | cons s ss ih =>
    intro c h
    cases c with
    | nil => exact absurd h (by simp [IsCoord])
    | cons c cs =>
      have h1 := childIndex_lt h.2
      rw [childIndex, coordinates_cons, coordinates_mod, ih h.2]
      congr 1
      rw [Nat.add_comm, Nat.add_mul_div_right _ _ (by omega), Nat.div_eq_of_lt h1, Nat.zero_add,
        Nat.mod_eq_of_lt h.1]

theorem childIndex_coordinates {splits : List Nat} : ∀ {i}, i < product splits →
    childIndex splits (coordinates splits i) = i := by
  induction splits with
  | nil => intro i h; simp [product] at h; subst h; rfl
  | cons s ss ih =>
    intro i h
    have hp : 0 < product ss := by
      rcases Nat.eq_zero_or_pos (product ss) with h0 | h0
      · simp [product, h0] at h
      · exact h0
    rw [coordinates_cons, childIndex]
    have hq : i / product ss < s := Nat.div_lt_of_lt_mul (by rw [Nat.mul_comm]; exact h)
    rw [Nat.mod_eq_of_lt hq]
    have hi : i / product ss * product ss + i % product ss = i := by
      rw [Nat.mul_comm]; exact Nat.div_add_mod i (product ss)
    have : coordinates ss i = coordinates ss (i % product ss) := by
      conv_lhs => rw [← hi]
      rw [coordinates_mod]
    rw [this, ih (Nat.mod_lt _ hp)]
    exact hi

theorem childIndex_inj {splits c c' : List Nat} (h : IsCoord splits c) (h' : IsCoord splits c')
    (he : childIndex splits c = childIndex splits c') : c = c' := by
  rw [← coordinates_childIndex h, he, coordinates_childIndex h']

theorem cube_get (splits : List Nat) (i : Nat) :
    (cubeCoordinates splits)[i]? = if i < product splits then some (coordinates splits i) else none := by
  unfold cubeCoordinates
  rw [branchingFactor_eq]
  by_cases h : i < product splits
  · simp [h]
  · simp [h, Nat.le_of_not_lt h]

/-- **C42** (the number of children).  There are as many children as coordinate vectors: the product of the splits. -/
theorem C42_count (splits : List Nat) : (cubeCoordinates splits).length = product splits := by
  simp [cubeCoordinates, branchingFactor_eq]

/-- **C42** (children and coordinates).  Every child has a coordinate vector which is in range; the vector's position in the
list of all vectors (first dimension changing most slowly) is the child's index. -/
theorem C42_coordinates {splits : List Nat} (h : ∀ s ∈ splits, 0 < s) {i : Nat} {c : List Nat}
    (hi : (cubeCoordinates splits)[i]? = some c) : IsCoord splits c ∧ childIndex splits c = i := by
  rw [cube_get] at hi
  split at hi
  · rename_i hlt
    cases hi
    exact ⟨isCoord_coordinates h i, childIndex_coordinates hlt⟩
  · cases hi

/-- **C42** (bijection).  Every coordinate vector in range belongs to exactly one child. -/
theorem C42_bijection {splits : List Nat} {c : List Nat} (hc : IsCoord splits c) :
    ∃ i : Nat, (cubeCoordinates splits)[i]? = some c ∧ ∀ j : Nat, (cubeCoordinates splits)[j]? = some c → j = i := by
  refine ⟨childIndex splits c, ?_, ?_⟩
  · rw [cube_get, if_pos (childIndex_lt hc), coordinates_childIndex hc]
  · intro j hj
    rw [cube_get] at hj
    split at hj
    · rename_i hlt
      cases hj
      exact (childIndex_coordinates hlt).symm
    · cases hj

/-- **C42** (order).  Children are in lexicographic order of their coordinates. -/
theorem C42_order {splits : List Nat} {i j : Nat} {c d : List Nat} (h : ∀ s ∈ splits, 0 < s)
    (hi : (cubeCoordinates splits)[i]? = some c) (hj : (cubeCoordinates splits)[j]? = some d) (hij : i < j) :
    List.Lex (· < ·) c d := by
  obtain ⟨hc, ci⟩ := C42_coordinates h hi
  obtain ⟨hd, dj⟩ := C42_coordinates h hj
  rw [← ci, ← dj] at hij
  clear hi hj ci dj h i j
  induction splits generalizing c d with
  | nil => cases c <;> simp [IsCoord] at hc; cases d <;> simp [IsCoord] at hd; simp [childIndex] at hij
  | cons s ss ih =>
    cases c with
    | nil => exact absurd hc (by simp [IsCoord])
    | cons c cs =>
    cases d with
    | nil => exact absurd hd (by simp [IsCoord])
    | cons d ds =>
      simp only [childIndex] at hij
      have h1 := childIndex_lt hc.2
      have h2 := childIndex_lt hd.2
      rcases Nat.lt_trichotomy c d with hlt | heq | hgt
      · exact List.Lex.rel hlt
      · subst heq
        exact List.Lex.cons (ih (by omega) hc.2 hd.2)
      · have : (d + 1) * product ss ≤ c * product ss := Nat.mul_le_mul_right _ hgt
        have h3 : (d + 1) * product ss = d * product ss + product ss := by ring
        omega

example : cubeCoordinates [2, 3] = [[0,0],[0,1],[0,2],[1,0],[1,1],[1,2]] := by decide

/-! ### Cells -/

/-- `lo <= x < lo + b` in each dimension. -/
def InBox : List Rat → List Rat → List Rat → Prop
  | [], [], [] => True
  | l :: ls, b :: bs, x :: xs => l ≤ x ∧ x < l + b ∧ InBox ls bs xs
  | _, _, _ => False

/-- The lower corner of the cell of a path. -/
def cellLo (splits : List Nat) : List Nat → List Rat
  | [] => List.replicate splits.length 0
  | i :: p => place splits (coordinates splits i) (cellLo splits p)

def breadth (splits : List Nat) (k : Nat) : List Rat := splits.map (fun (s : Nat) => 1 / (s : Rat) ^ k)

theorem inBox_unit (splits : List Nat) : ∀ x, InBox (List.replicate splits.length 0) (breadth splits 0) x ↔ InCube splits x := by
  unfold InCube
  induction splits with
  | nil => intro x; cases x <;> simp [InBox, breadth]
  | cons s ss ih =>
    intro x
    cases x with
    | nil => simp [InBox, breadth]
    | cons q x =>
      have := ih x
      simp only [breadth, List.length_cons, List.replicate_succ, List.map_cons, InBox, List.mem_cons, forall_eq_or_imp,
        Nat.add_right_cancel_iff] at this ⊢
      rw [this]
      simp only [pow_zero, div_one, zero_add]
      tauto

theorem place_length {splits : List Nat} : ∀ {c y}, IsCoord splits c → y.length = splits.length →
    (place splits c y).length = splits.length := by
  induction splits with
  | nil => intro c y _ _; simp [place]
  | cons s ss ih =>
    intro c y hc hy
    cases c with
    | nil => exact absurd hc (by simp [IsCoord])
    | cons c cs =>
    cases y with
    | nil => simp at hy
    | cons y ys =>
      simp only [place, List.length_cons, Nat.add_right_cancel_iff] at hy ⊢
      exact ih hc.2 hy

theorem cellLo_length {splits : List Nat} (h : ∀ s ∈ splits, 0 < s) (path : List Nat) :
    (cellLo splits path).length = splits.length := by
  induction path with
  | nil => simp [cellLo]
  | cons i p ih => exact place_length (isCoord_coordinates h i) ih

theorem inBox_place {splits : List Nat} (h : ∀ s ∈ splits, 0 < s) (k : Nat) : ∀ {c lo x}, IsCoord splits c →
    lo.length = splits.length →
    (InBox (place splits c lo) (breadth splits (k + 1)) x ↔ ∃ y, InBox lo (breadth splits k) y ∧ x = place splits c y) := by
  induction splits with
  | nil =>
    intro c lo x hc hl
    have hl : lo = [] := List.eq_nil_of_length_eq_zero hl
    subst hl
    cases x with
    | nil =>
      simp only [place, breadth, List.map_nil, InBox, true_iff]
      exact ⟨[], trivial, trivial⟩
    | cons => simp [place, InBox, breadth]
  | cons s ss ih =>
    intro c lo x hc hl
    have hs : (0 : Rat) < s := by exact_mod_cast h s List.mem_cons_self
    have h' : ∀ t ∈ ss, 0 < t := fun t ht => h t (List.mem_cons_of_mem _ ht)
    cases c with
    | nil => exact absurd hc (by simp [IsCoord])
    | cons c cs =>
    cases lo with
    | nil => simp at hl
    | cons l ls =>
      simp only [List.length_cons, Nat.add_right_cancel_iff] at hl
      have ih := fun x => ih h' (c := cs) (lo := ls) (x := x) hc.2 hl
      unfold breadth at ih ⊢
      have hb : ∀ k, (1 : Rat) / (s : Rat) ^ (k + 1) = 1 / (s : Rat) ^ k / s := by
        intro k; rw [pow_succ, div_div]
      constructor
      · intro hx
        cases x with
        | nil => exact absurd hx (by simp [place, InBox])
        | cons x xs =>
          simp only [place, List.map_cons, InBox] at hx
          obtain ⟨h1, h2, h3⟩ := hx
          obtain ⟨y, hy, he⟩ := (ih xs).1 h3
          refine ⟨(x * s - c) :: y, ⟨?_, ?_, hy⟩, ?_⟩
          · rw [div_le_iff₀ hs] at h1; linarith
          · rw [hb, ← add_div, lt_div_iff₀ hs] at h2; linarith
          · rw [place, ← he]
            congr 1
            rw [eq_div_iff (ne_of_gt hs)]; ring
      · rintro ⟨y, hy, he⟩
        cases y with
        | nil => exact absurd hy (by simp [InBox])
        | cons y ys =>
          simp only [List.map_cons, InBox] at hy
          obtain ⟨h1, h2, h3⟩ := hy
          subst he
          simp only [place, List.map_cons, InBox]
          refine ⟨?_, ?_, (ih _).2 ⟨ys, h3, rfl⟩⟩
          · apply div_le_div_of_nonneg_right _ (le_of_lt hs); linarith
          · rw [hb, ← add_div]
            apply div_lt_div_of_pos_right _ hs; linarith

theorem inCell_iff {splits : List Nat} (h : ∀ s ∈ splits, 0 < s) {path : List Nat} (hp : ∀ i ∈ path, i < product splits) :
    ∀ x, InCell splits path x ↔ InBox (cellLo splits path) (breadth splits path.length) x := by
  induction path with
  | nil => intro x; exact (inBox_unit splits x).symm
  | cons i p ih =>
    intro x
    have ih := ih (fun j hj => hp j (List.mem_cons_of_mem _ hj))
    have hi := hp i List.mem_cons_self
    rw [cellLo, List.length_cons, inBox_place h p.length (isCoord_coordinates h i) (cellLo_length h p)]
    constructor
    · rintro ⟨c, y, hc, he, hy, hx⟩
      rw [← he, coordinates_childIndex hc]
      exact ⟨y, (ih y).1 hy, hx⟩
    · rintro ⟨y, hy, hx⟩
      exact ⟨coordinates splits i, y, isCoord_coordinates h i, childIndex_coordinates hi, (ih y).2 hy, hx⟩

/-- `lo + b * y` -/
def addScaled : List Rat → List Rat → List Rat → List Rat
  | l :: ls, b :: bs, y :: ys => (l + b * y) :: addScaled ls bs ys
  | _, _, _ => []

theorem addScaled_place {splits : List Nat} : ∀ {lo b c y}, IsCoord splits c → lo.length = splits.length →
    b.length = splits.length → y.length = splits.length →
    addScaled lo b (place splits c y) =
      addScaled (List.zipWith (· + ·) lo (List.zipWith (fun b (coord : Nat) => b * coord)
        (List.zipWith (fun (f : Rat) (split : Nat) => f / split) b splits) c))
        (List.zipWith (fun (f : Rat) (split : Nat) => f / split) b splits) y := by
  induction splits with
  | nil => intro lo b c y _ hl hb hy; simp at hl hb hy; subst hl hb hy; simp [addScaled]
  | cons s ss ih =>
    intro lo b c y hc hl hb hy
    cases c with
    | nil => exact absurd hc (by simp [IsCoord])
    | cons c cs =>
    cases lo with
    | nil => simp at hl
    | cons l ls =>
    cases b with
    | nil => simp at hb
    | cons b bs =>
    cases y with
    | nil => simp at hy
    | cons y ys =>
      simp only [List.length_cons, Nat.add_right_cancel_iff] at hl hb hy
      simp only [place, addScaled, List.zipWith_cons_cons]
      rw [ih hc.2 hl hb hy]
      congr 1
      ring

theorem boxLoop_eq {splits : List Nat} (h : ∀ s ∈ splits, 0 < s) {path : List Nat} : ∀ {lo b : List Rat},
    (∀ i ∈ path, i < product splits) → lo.length = splits.length → b.length = splits.length →
    boxLoop splits lo b path = .ok (addScaled lo b (cellLo splits path), List.zipWith (fun f g => f * g) b (breadth splits path.length)) := by
  induction path with
  | nil =>
    intro lo b _ hl hb
    unfold boxLoop
    have h1 : ∀ (n : Nat) (lo b : List Rat), lo.length = n → b.length = n → addScaled lo b (List.replicate n 0) = lo := by
      intro n
      induction n with
      | zero => intro lo b hl hb; simp at hl hb; subst hl hb; rfl
      | succ n ih =>
        intro lo b hl hb
        cases lo with
        | nil => simp at hl
        | cons l ls =>
        cases b with
        | nil => simp at hb
        | cons b bs =>
          simp only [List.length_cons, Nat.add_right_cancel_iff] at hl hb
          simp [List.replicate_succ, addScaled, ih ls bs hl hb]
    have h2 : ∀ (splits : List Nat) (b : List Rat), b.length = splits.length →
        List.zipWith (fun f g => f * g) b (breadth splits 0) = b := by
      intro splits
      induction splits with
      | nil => intro b hb; simp at hb; subst hb; rfl
      | cons s ss ih =>
        intro b hb
        cases b with
        | nil => simp at hb
        | cons b bs =>
          simp only [List.length_cons, Nat.add_right_cancel_iff] at hb
          have := ih bs hb
          unfold breadth at this ⊢
          simp only [List.map_cons, List.zipWith_cons_cons, this]
          simp
    rw [cellLo, h1 _ lo b hl hb, List.length_nil, h2 splits b hb]
  | cons i p ih =>
    intro lo b hp hl hb
    rw [boxLoop, cube_get, if_pos (hp i List.mem_cons_self)]
    have hc := isCoord_coordinates h i
    have hcl : (coordinates splits i).length = splits.length := by simp [coordinates, coordLoop_length]
    simp only
    rw [ih (fun j hj => hp j (List.mem_cons_of_mem _ hj)) (by simp [hl, hb, hcl]) (by simp [hb])]
    rw [cellLo, addScaled_place hc hl hb (cellLo_length h p)]
    congr 2
    have h3 : ∀ (splits : List Nat) (b : List Rat) (k : Nat),
        List.zipWith (fun f g => f * g) (List.zipWith (fun (f : Rat) (split : Nat) => f / split) b splits) (breadth splits k)
          = List.zipWith (fun f g => f * g) b (breadth splits (k + 1)) := by
      intro splits
      induction splits with
      | nil => intro b k; simp [breadth]
      | cons s ss ih =>
        intro b k
        cases b with
        | nil => simp
        | cons b bs =>
          have := ih bs k
          unfold breadth at this ⊢
          simp only [List.map_cons, List.zipWith_cons_cons, this]
          congr 1
          rw [pow_succ, div_mul_div_comm, mul_one, mul_one_div, mul_comm (s : Rat)]
    exact h3 splits b p.length

/-- The centre of the cell, as `parameters_for_path` calculates it. -/
def centre (splits : List Nat) (path : List Nat) : List Rat :=
  List.zipWith (fun f b => f + 1 / 2 * b) (cellLo splits path) (breadth splits path.length)

theorem parametersForPath_eq {splits : List Nat} (h : ∀ s ∈ splits, 0 < s) {path : List Nat}
    (hp : ∀ i ∈ path, i < product splits) : parametersForPath splits path = .ok (centre splits path) := by
  unfold parametersForPath
  rw [boxLoop_eq h hp (by simp) (by simp)]
  have h1 : ∀ (l : List Rat), addScaled (List.replicate l.length 0) (List.replicate l.length 1) l = l := by
    intro l
    induction l with
    | nil => rfl
    | cons a l ih => simp [List.replicate_succ, addScaled, ih]
  have h2 : ∀ (l : List Rat), List.zipWith (fun f g => f * g) (List.replicate l.length 1) l = l := by
    intro l
    induction l with
    | nil => rfl
    | cons a l ih => simp [List.replicate_succ, ih]
  have h3 : (breadth splits path.length).length = splits.length := by simp [breadth]
  simp only
  have h4 := h1 (cellLo splits path)
  have h5 := h2 (breadth splits path.length)
  rw [cellLo_length h] at h4
  rw [h3] at h5
  rw [h4, h5]
  rfl

theorem around_centre {splits : List Nat} (k : Nat) : ∀ {lo x : List Rat}, lo.length = splits.length →
    (Around k splits (List.zipWith (fun f b => f + 1 / 2 * b) lo (breadth splits k)) x ↔ InBox lo (breadth splits k) x) := by
  unfold breadth
  induction splits with
  | nil => intro lo x hl; simp at hl; subst hl; cases x <;> simp [Around, InBox]
  | cons s ss ih =>
    intro lo x hl
    cases lo with
    | nil => simp at hl
    | cons l ls =>
      simp only [List.length_cons, Nat.add_right_cancel_iff] at hl
      cases x with
      | nil => simp [Around, InBox]
      | cons x xs =>
        simp only [List.map_cons, List.zipWith_cons_cons, Around, InBox, ih hl]
        constructor
        · rintro ⟨h1, h2, h3⟩; exact ⟨by linarith, by linarith, h3⟩
        · rintro ⟨h1, h2, h3⟩; exact ⟨by linarith, by linarith, h3⟩

/-- **C42** (parameters are the centre of the cell).  For every path of valid child indices `parameters_for_path` gives the
centre of the cuboid that the path leads to: the points of the cuboid are those at most half a breadth from it in each
dimension, the breadth being the split raised to the power minus the length of the path. -/
theorem C42_centre {splits : List Nat} (h : ∀ s ∈ splits, 0 < s) {path : List Nat} (hp : ∀ i ∈ path, i < product splits) :
    ∃ ps, parametersForPath splits path = .ok ps ∧ ∀ x, InCell splits path x ↔ Around path.length splits ps x := by
  refine ⟨_, parametersForPath_eq h hp, fun x => ?_⟩
  rw [inCell_iff h hp, centre, around_centre _ (cellLo_length h path)]

theorem around_self {splits : List Nat} (h : ∀ s ∈ splits, 0 < s) (k : Nat) : ∀ {ps : List Rat}, ps.length = splits.length →
    Around k splits ps ps := by
  induction splits with
  | nil => intro ps hl; simp at hl; subst hl; trivial
  | cons s ss ih =>
    intro ps hl
    cases ps with
    | nil => simp at hl
    | cons p ps =>
      simp only [List.length_cons, Nat.add_right_cancel_iff] at hl
      have hs : (0 : Rat) < s := by exact_mod_cast h s List.mem_cons_self
      have hb : (0 : Rat) < 1 / (s : Rat) ^ k := by positivity
      exact ⟨by linarith, by linarith, ih (fun t ht => h t (List.mem_cons_of_mem _ ht)) hl⟩

theorem inCell_cube {splits : List Nat} : ∀ {path x}, InCell splits path x → InCube splits x := by
  have key : ∀ (splits : List Nat) (c : List Nat) (y : List Rat), IsCoord splits c → InCube splits y →
      InCube splits (place splits c y) := by
    intro splits
    induction splits with
    | nil => intro c y _ _; exact ⟨by simp [place], by simp [place]⟩
    | cons s ss ih =>
      intro c y hc hy
      cases c with
      | nil => exact absurd hc (by simp [IsCoord])
      | cons c cs =>
      cases y with
      | nil => exact absurd hy.1 (by simp)
      | cons y ys =>
        have hy' : InCube ss ys := ⟨by simpa using hy.1, fun q hq => hy.2 q (List.mem_cons_of_mem _ hq)⟩
        have := ih cs ys hc.2 hy'
        refine ⟨by simp [place, this.1], ?_⟩
        intro q hq
        simp only [place, List.mem_cons] at hq
        rcases hq with rfl | hq
        · have h1 := hy.2 y List.mem_cons_self
          have h2 : (c : Rat) + 1 ≤ s := by exact_mod_cast hc.1
          have h3 : (0 : Rat) ≤ c := by exact_mod_cast Nat.zero_le c
          have hs : (0 : Rat) < s := by linarith
          exact ⟨div_nonneg (by linarith) (by linarith), by rw [div_lt_one hs]; linarith⟩
        · exact this.2 q hq
  intro path
  induction path with
  | nil => intro x h; exact h
  | cons i p ih =>
    rintro x ⟨c, y, hc, _, hy, rfl⟩
    exact key splits c y hc (ih hy)

/-- **C42** (parameters are in their cell and in the unit cube).  The optimiser parameters for a path are one number for each
dimension, lie in the cuboid the path leads to, and are strictly between 0 and 1. -/
theorem C42_inside {splits : List Nat} (h : ∀ s ∈ splits, 0 < s) {path : List Nat} (hp : ∀ i ∈ path, i < product splits) :
    ∃ ps, parametersForPath splits path = .ok ps ∧ ps.length = splits.length ∧ InCell splits path ps ∧
      ∀ q ∈ ps, 0 < q ∧ q < 1 := by
  obtain ⟨ps, he, ha⟩ := C42_centre h hp
  have hps : ps = centre splits path := by
    rw [parametersForPath_eq h hp] at he; exact (Except.ok.inj he).symm
  have hl : ps.length = splits.length := by
    rw [hps]; simp [centre, cellLo_length h, breadth]
  have hcell := (ha ps).2 (around_self h _ hl)
  refine ⟨ps, he, hl, hcell, ?_⟩
  intro q hq
  refine ⟨?_, ((inCell_cube hcell).2 q hq).2⟩
  -- the lower corner of the cell is in the cell, so it isn't negative
  have hlo : InCell splits path (cellLo splits path) := by
    rw [inCell_iff h hp]
    have : ∀ (ss : List Nat), (∀ s ∈ ss, 0 < s) → ∀ (lo : List Rat) (k : Nat), lo.length = ss.length →
        InBox lo (breadth ss k) lo := by
      intro ss
      induction ss with
      | nil => intro _ lo k hl; simp at hl; subst hl; trivial
      | cons s ss ih =>
        intro h lo k hl
        cases lo with
        | nil => simp at hl
        | cons l ls =>
          simp only [List.length_cons, Nat.add_right_cancel_iff] at hl
          have hs : (0 : Rat) < s := by exact_mod_cast h s List.mem_cons_self
          have hb : (0 : Rat) < 1 / (s : Rat) ^ k := by positivity
          exact ⟨le_refl _, by linarith, ih (fun t ht => h t (List.mem_cons_of_mem _ ht)) ls k hl⟩
    exact this splits h _ _ (cellLo_length h path)
  have hnn := (inCell_cube hlo).2
  have key : ∀ (ss : List Nat), (∀ s ∈ ss, 0 < s) → ∀ (lo : List Rat) (k : Nat), (∀ q ∈ lo, 0 ≤ q) →
      ∀ q ∈ List.zipWith (fun f b => f + 1 / 2 * b) lo (breadth ss k), 0 < q := by
    intro ss
    induction ss with
    | nil => intro _ lo k _ q hq; simp [breadth] at hq
    | cons s ss ih =>
      intro h lo k hlo q hq
      cases lo with
      | nil => simp at hq
      | cons l ls =>
        have hs : (0 : Rat) < s := by exact_mod_cast h s List.mem_cons_self
        have hb : (0 : Rat) < 1 / (s : Rat) ^ k := by positivity
        simp only [breadth, List.map_cons, List.zipWith_cons_cons, List.mem_cons] at hq
        rcases hq with rfl | hq
        · have := hlo l List.mem_cons_self; linarith
        · exact ih (fun t ht => h t (List.mem_cons_of_mem _ ht)) ls k (fun q hq => hlo q (List.mem_cons_of_mem _ hq)) q hq
  rw [hps] at hq
  exact key splits h _ _ (fun q hq => (hnn q hq).1) q hq

theorem place_inj {splits : List Nat} : ∀ {c y z}, IsCoord splits c → y.length = splits.length → z.length = splits.length →
    place splits c y = place splits c z → y = z := by
  induction splits with
  | nil => intro c y z _ hy hz _; simp at hy hz; rw [hy, hz]
  | cons s ss ih =>
    intro c y z hc hy hz he
    cases c with
    | nil => exact absurd hc (by simp [IsCoord])
    | cons c cs =>
    cases y with
    | nil => simp at hy
    | cons y ys =>
    cases z with
    | nil => simp at hz
    | cons z zs =>
      simp only [List.length_cons, Nat.add_right_cancel_iff] at hy hz
      simp only [place, List.cons.injEq] at he
      have hs : (0 : Rat) < s := by exact_mod_cast (Nat.lt_of_le_of_lt (Nat.zero_le _) hc.1)
      have h1 : (c : Rat) + y = c + z := by
        have := he.1
        rwa [div_left_inj' (ne_of_gt hs)] at this
      rw [ih hc.2 hy hz he.2, show y = z by linarith]

/-- A point of the unit cube is in exactly one subdivision. -/
theorem cube_subdivision {splits : List Nat} (h : ∀ s ∈ splits, 0 < s) : ∀ {x}, InCube splits x →
    ∃ c y, (IsCoord splits c ∧ InCube splits y ∧ x = place splits c y) ∧
      ∀ c' y', IsCoord splits c' → InCube splits y' → x = place splits c' y' → c' = c := by
  induction splits with
  | nil =>
    intro x hx
    have hx' : x = [] := List.eq_nil_of_length_eq_zero hx.1
    subst hx'
    refine ⟨[], [], ⟨trivial, hx, rfl⟩, ?_⟩
    intro c' y' hc' _ _
    cases c' with
    | nil => rfl
    | cons => exact absurd hc' (by simp [IsCoord])
  | cons s ss ih =>
    intro x hx
    cases x with
    | nil => exact absurd hx.1 (by simp)
    | cons x xs =>
      have hs : (0 : Rat) < s := by exact_mod_cast h s List.mem_cons_self
      have hxs : InCube ss xs := ⟨by simpa using hx.1, fun q hq => hx.2 q (List.mem_cons_of_mem _ hq)⟩
      obtain ⟨c, y, ⟨hc, hy, he⟩, hu⟩ := ih (fun t ht => h t (List.mem_cons_of_mem _ ht)) hxs
      have h0 := hx.2 x List.mem_cons_self
      have hn : 0 ≤ x * s := mul_nonneg h0.1 (le_of_lt hs)
      have hf1 := Nat.floor_le hn
      have hf2 := Nat.lt_floor_add_one (x * s)
      refine ⟨⌊x * s⌋₊ :: c, (x * s - ⌊x * s⌋₊) :: y, ⟨⟨?_, hc⟩, ⟨by simp [hy.1], ?_⟩, ?_⟩, ?_⟩
      · rw [Nat.floor_lt hn]
        nlinarith
      · intro q hq
        rcases List.mem_cons.1 hq with rfl | hq
        · exact ⟨by linarith, by linarith⟩
        · exact hy.2 q hq
      · rw [place, ← he]
        congr 1
        rw [eq_div_iff (ne_of_gt hs)]; ring
      · intro c' y' hc' hy' he'
        cases c' with
        | nil => exact absurd hc' (by simp [IsCoord])
        | cons c' cs' =>
        cases y' with
        | nil => exact absurd hy'.1 (by simp)
        | cons y' ys' =>
          simp only [place, List.cons.injEq] at he'
          have hy0 := hy'.2 y' List.mem_cons_self
          rw [hu cs' ys' hc'.2 ⟨by simpa using hy'.1, fun q hq => hy'.2 q (List.mem_cons_of_mem _ hq)⟩ he'.2]
          congr 1
          have h1 := he'.1
          rw [eq_div_iff (ne_of_gt hs)] at h1
          symm
          rw [Nat.floor_eq_iff hn]
          exact ⟨by linarith, by linarith⟩

/-- **C42** (tiling).  The cuboids of a node's children are disjoint and make up the node's cuboid: every point of the
node's cuboid is in the cuboid of exactly one child... -/
theorem C42_tiling {splits : List Nat} (h : ∀ s ∈ splits, 0 < s) {path : List Nat} {x : List Rat}
    (hx : InCell splits path x) :
    ∃ i, (i < product splits ∧ InCell splits (path ++ [i]) x) ∧ ∀ j, InCell splits (path ++ [j]) x → j = i := by
  induction path generalizing x with
  | nil =>
    obtain ⟨c, y, ⟨hc, hy, he⟩, hu⟩ := cube_subdivision h hx
    refine ⟨childIndex splits c, ⟨childIndex_lt hc, c, y, hc, rfl, hy, he⟩, ?_⟩
    rintro j ⟨c', y', hc', rfl, hy', he'⟩
    rw [hu c' y' hc' hy' he']
  | cons k p ih =>
    obtain ⟨c, y, hc, hk, hy, he⟩ := hx
    obtain ⟨i, ⟨hi, hcell⟩, hu⟩ := ih hy
    refine ⟨i, ⟨hi, c, y, hc, hk, hcell, he⟩, ?_⟩
    rintro j ⟨c', y', hc', hk', hy', he'⟩
    have hcc := childIndex_inj hc hc' (hk.trans hk'.symm)
    subst hcc
    have := place_inj hc (inCell_cube hy).1 (inCell_cube hy').1 (he.symm.trans he')
    subst this
    exact hu j hy'

/-- ... and a child's cuboid is part of its parent's. -/
theorem C42_nested {splits : List Nat} {path : List Nat} {i : Nat} {x : List Rat} (hx : InCell splits (path ++ [i]) x) :
    InCell splits path x := by
  induction path generalizing x with
  | nil => exact inCell_cube hx
  | cons k p ih =>
    obtain ⟨c, y, hc, hk, hy, he⟩ := hx
    exact ⟨c, y, hc, hk, ih hy, he⟩

/-- **C42** (a generation tiles the whole space).  For every depth, every point of the unit cube is in the cell of exactly
one path of that length. -/
theorem C42_generation {splits : List Nat} (h : ∀ s ∈ splits, 0 < s) {x : List Rat} (hx : InCube splits x) (depth : Nat) :
    ∃ path, (path.length = depth ∧ InCell splits path x) ∧ ∀ p, p.length = depth → InCell splits p x → p = path := by
  induction depth with
  | zero =>
    exact ⟨[], ⟨rfl, hx⟩, fun p hp _ => List.eq_nil_of_length_eq_zero hp⟩
  | succ n ih =>
    obtain ⟨path, ⟨hl, hc⟩, hu⟩ := ih
    obtain ⟨i, ⟨_, hci⟩, hui⟩ := C42_tiling h hc
    refine ⟨path ++ [i], ⟨by simp [hl], hci⟩, ?_⟩
    intro p hp hpc
    obtain ⟨q, j, rfl⟩ : ∃ q j, p = q ++ [j] := by
      rcases List.eq_nil_or_concat p with rfl | ⟨q, j, rfl⟩
      · simp at hp
      · exact ⟨q, j, by simp⟩
    have hq := hu q (by simpa using hp) (C42_nested hpc)
    subst hq
    rw [hui j hpc]

/-- **C42** (distinct paths, distinct parameters).  Distinct paths of the same length give different parameters. -/
theorem C42_distinct {splits : List Nat} (h : ∀ s ∈ splits, 0 < s) {p q : List Nat} (hp : ∀ i ∈ p, i < product splits)
    (hq : ∀ i ∈ q, i < product splits) (hl : p.length = q.length)
    (he : parametersForPath splits p = parametersForPath splits q) : p = q := by
  obtain ⟨ps, hps, _, hc, _⟩ := C42_inside h hp
  obtain ⟨qs, hqs, _, hd, _⟩ := C42_inside h hq
  rw [hps, hqs] at he
  cases he
  obtain ⟨path, _, hu⟩ := C42_generation h (inCell_cube hc) p.length
  rw [hu p rfl hc, hu q hl.symm hd]

/-- **C42** (bad paths).  A child index which is out of range is refused. -/
theorem C42_bad_index {splits : List Nat} {path : List Nat} (hp : ∃ i ∈ path, product splits ≤ i) :
    parametersForPath splits path = .error .indexError := by
  have key : ∀ (path : List Nat) (lo b : List Rat), (∃ i ∈ path, product splits ≤ i) →
      boxLoop splits lo b path = .error .indexError := by
    intro path
    induction path with
    | nil => rintro lo b ⟨i, hi, _⟩; simp at hi
    | cons k p ih =>
      rintro lo b ⟨i, hi, hlt⟩
      rw [boxLoop, cube_get]
      by_cases hk : k < product splits
      · rw [if_pos hk]
        simp only
        apply ih
        rcases List.mem_cons.1 hi with rfl | hi
        · omega
        · exact ⟨i, hi, hlt⟩
      · rw [if_neg hk]
  unfold parametersForPath
  rw [key path _ _ hp]

/-- A path of length 2 in a space with splits 2 and 3. -/
example : parametersForPath [2, 3] [5, 1] = .ok [5/8, 5/6] := by decide +kernel

end Gomill.Mcts
