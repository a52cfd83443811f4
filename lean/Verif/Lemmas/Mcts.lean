import Verif.Model.Mcts
import Verif.Spec.Mcts
import Verif.Lemmas.Schedulers
import Mathlib.Tactic.Linarith
import Mathlib.Algebra.Order.Ring.Rat
/-
Lemmas about the tree of the MCTS tuner.
-/
namespace Gomill.Mcts
open Py Sched MctsSpec

/-! ### `max` -/

theorem foldl_max {α : Type} (key : α → Rat) (l : List α) : ∀ a,
    let r := l.foldl (fun best x => if key best < key x then x else best) a
    r ∈ a :: l ∧ ∀ x ∈ a :: l, key x ≤ key r := by
  induction l with
  | nil => intro a; simp
  | cons b l ih =>
    intro a
    simp only [List.foldl_cons]
    by_cases h : key a < key b
    · rw [if_pos h]
      obtain ⟨h1, h2⟩ := ih b
      refine ⟨List.mem_cons_of_mem _ h1, ?_⟩
      intro x hx
      rcases List.mem_cons.1 hx with rfl | hx
      · exact le_trans (le_of_lt h) (h2 b List.mem_cons_self)
      · exact h2 x hx
    · rw [if_neg h]
      obtain ⟨h1, h2⟩ := ih a
      refine ⟨?_, ?_⟩
      · rcases List.mem_cons.1 h1 with h1 | h1
        · rw [h1]; exact List.mem_cons_self
        · exact List.mem_cons_of_mem _ (List.mem_cons_of_mem _ h1)
      · intro x hx
        rcases List.mem_cons.1 hx with rfl | hx
        · exact h2 _ List.mem_cons_self
        · rcases List.mem_cons.1 hx with rfl | hx
          · exact le_trans (not_lt.1 h) (h2 a List.mem_cons_self)
          · exact h2 x (List.mem_cons_of_mem _ hx)

theorem maxBy_spec {α : Type} {key : α → Rat} {l : List α} {a : α} (h : maxBy key l = some a) :
    a ∈ l ∧ ∀ x ∈ l, key x ≤ key a := by
  cases l with
  | nil => simp [maxBy] at h
  | cons b l =>
    simp only [maxBy, Option.some.injEq] at h
    subst h
    exact foldl_max key l b

theorem foldl_first {α : Type} (key : α → Rat) (l : List α) : ∀ a,
    ∃ pre post, a :: l = pre ++ l.foldl (fun best x => if key best < key x then x else best) a :: post ∧
      ∀ x ∈ pre, key x < key (l.foldl (fun best x => if key best < key x then x else best) a) := by
  induction l with
  | nil => intro a; exact ⟨[], [], rfl, by simp⟩
  | cons b l ih =>
    intro a
    simp only [List.foldl_cons]
    by_cases h : key a < key b
    · rw [if_pos h]
      obtain ⟨pre, post, he, hlt⟩ := ih b
      refine ⟨a :: pre, post, by rw [List.cons_append, ← he], ?_⟩
      intro x hx
      rcases List.mem_cons.1 hx with rfl | hx
      · exact lt_of_lt_of_le h ((foldl_max key l b).2 b List.mem_cons_self)
      · exact hlt x hx
    · rw [if_neg h]
      obtain ⟨pre, post, he, hlt⟩ := ih a
      cases pre with
      | nil =>
        simp only [List.nil_append, List.cons.injEq] at he
        refine ⟨[], b :: l, ?_, by simp⟩
        rw [← he.1]; rfl
      | cons d pre =>
        simp only [List.cons_append, List.cons.injEq] at he
        obtain ⟨rfl, he⟩ := he
        refine ⟨a :: b :: pre, post, by rw [List.cons_append, List.cons_append, ← he], ?_⟩
        intro x hx
        have ha := hlt a List.mem_cons_self
        rcases List.mem_cons.1 hx with rfl | hx
        · exact ha
        · rcases List.mem_cons.1 hx with rfl | hx
          · exact lt_of_le_of_lt (not_lt.1 h) ha
          · exact hlt x (List.mem_cons_of_mem _ hx)

theorem maxBy_isSome {α : Type} {key : α → Rat} {l : List α} (h : l ≠ []) : ∃ a, maxBy key l = some a := by
  cases l with
  | nil => exact absurd rfl h
  | cons b l => exact ⟨_, rfl⟩

/-- The chosen index is that of a child of greatest urgency. -/
theorem choose_spec (c : Config) (start v : Nat) {cs : List Node} (h : cs ≠ []) :
    ∃ n, cs[c.choose start v cs]? = some n ∧ ∀ m ∈ cs, c.urgency v m.wins m.visits ≤ c.urgency v n.wins n.visits := by
  unfold Config.choose
  have hperm : ∀ x, x ∈ cs.zipIdx.drop (start % cs.length) ++ cs.zipIdx.take (start % cs.length) ↔ x ∈ cs.zipIdx := by
    intro x
    conv_rhs => rw [← List.take_append_drop (start % cs.length) cs.zipIdx]
    simp only [List.mem_append]
    tauto
  have hne : cs.zipIdx.drop (start % cs.length) ++ cs.zipIdx.take (start % cs.length) ≠ [] := by
    intro he
    cases cs with
    | nil => exact h rfl
    | cons a l =>
      have := (hperm (a, 0)).2 (by simp)
      rw [he] at this
      cases this
  obtain ⟨p, hp⟩ := maxBy_isSome (key := fun p : Node × Nat => c.urgency v p.1.wins p.1.visits) hne
  simp only [hp]
  obtain ⟨hm, hle⟩ := maxBy_spec hp
  have hm := (hperm p).1 hm
  obtain ⟨n, i⟩ := p
  rw [List.mk_mem_zipIdx_iff_getElem?] at hm
  refine ⟨n, hm, ?_⟩
  intro m hmem
  obtain ⟨j, hj, rfl⟩ := List.mem_iff_getElem.1 hmem
  have := hle (cs[j], j) ((hperm _).2 (by rw [List.mk_mem_zipIdx_iff_getElem?]; simp [hj]))
  exact this

/-- The greedy choice is the first of the children with most wins. -/
theorem chooseGreedy_spec {cs : List Node} (h : cs ≠ []) :
    ∃ m, cs[chooseGreedy cs]? = some m ∧ (∀ m' ∈ cs, m'.wins ≤ m.wins) ∧
      ∀ (j : Nat) m', j < chooseGreedy cs → cs[j]? = some m' → m'.wins < m.wins := by
  unfold chooseGreedy
  cases cs with
  | nil => exact absurd rfl h
  | cons a l =>
    have hz : (a :: l).zipIdx = (a, 0) :: l.zipIdx 1 := rfl
    obtain ⟨pre, post, he, hlt⟩ := foldl_first (fun p : Node × Nat => (p.1.wins : Rat)) (l.zipIdx 1) (a, 0)
    obtain ⟨hmem, hle⟩ := foldl_max (fun p : Node × Nat => (p.1.wins : Rat)) (l.zipIdx 1) (a, 0)
    simp only [hz, maxBy]
    generalize List.foldl (fun best x => if ((best : Node × Nat).1.wins : Rat) < ((x : Node × Nat).1.wins : Rat) then x else best) (a, 0) (l.zipIdx 1) = r at *
    obtain ⟨m, i⟩ := r
    rw [← hz] at he hmem hle
    rw [List.mk_mem_zipIdx_iff_getElem?] at hmem
    refine ⟨m, hmem, ?_, ?_⟩
    · intro m' hm'
      obtain ⟨j, hj, rfl⟩ := List.mem_iff_getElem.1 hm'
      have := hle ((a :: l)[j], j) (by rw [List.mk_mem_zipIdx_iff_getElem?, List.getElem?_eq_getElem hj])
      exact_mod_cast this
    · intro j m' hj hm'
      have hi : i = pre.length := by
        have h1 : ((a :: l).zipIdx)[pre.length]? = some (m, i) := by rw [he]; simp
        rw [List.getElem?_zipIdx] at h1
        simp only [Option.map_eq_some_iff, Prod.mk.injEq] at h1
        obtain ⟨_, _, _, h2⟩ := h1
        omega
      have h2 : ((a :: l).zipIdx)[j]? = some (m', j) := by
        rw [List.getElem?_zipIdx, hm']; simp
      rw [he, List.getElem?_append_left (by omega)] at h2
      have := hlt (m', j) (List.mem_of_getElem? h2)
      exact_mod_cast this

/-! ### Paths -/

theorem get_append : ∀ (p q : List Nat) (n : Node), n.get (p ++ q) = (n.get p).bind (fun m => m.get q) := by
  intro p
  induction p with
  | nil => intro q n; simp [Node.get]
  | cons i p ih =>
    intro q n
    obtain ⟨cs, w, v⟩ := n
    cases cs with
    | none => simp [Node.get]
    | some cs =>
      simp only [List.cons_append, Node.get]
      cases cs[i]? with
      | none => rfl
      | some c => exact ih q c

/-- The number of children of a node (`none` if it isn't expanded). -/
def Node.arity (n : Node) : Option Nat := n.children.map List.length

/-- What `expand` of the leaf at `p` does to the nodes. -/
theorem get_modify_expand (c : Config) {w v : Nat} : ∀ {p : List Nat} {root : Node}, root.get p = some (.mk none w v) →
    ∀ {q n'}, (root.modify c.expand p).get q = some n' →
      (∃ i, i < branchingFactor c.splits ∧ q = p ++ [i] ∧ n' = c.newNode) ∨
      (q = p ∧ n' = .mk (some c.newChildren) w v) ∨
      (q ≠ p ∧ ∃ n, root.get q = some n ∧ n'.wins = n.wins ∧ n'.visits = n.visits ∧ n'.arity = n.arity) := by
  intro p
  induction p with
  | nil =>
    intro root hr q n' hq
    simp only [Node.get, Option.some.injEq] at hr
    subst hr
    simp only [Node.modify, Config.expand] at hq
    cases q with
    | nil =>
      simp only [Node.get, Option.some.injEq] at hq
      exact .inr (.inl ⟨rfl, hq.symm⟩)
    | cons i q =>
      simp only [Node.get] at hq
      rw [Config.newChildren, List.getElem?_replicate] at hq
      by_cases hi : i < branchingFactor c.splits
      · rw [if_pos hi] at hq
        simp only at hq
        cases q with
        | nil =>
          simp only [Node.get, Option.some.injEq] at hq
          exact .inl ⟨i, hi, rfl, hq.symm⟩
        | cons j q => simp [Node.get, Config.newNode] at hq
      · rw [if_neg hi] at hq
        cases hq
  | cons i p ih =>
    intro root hr q n' hq
    obtain ⟨cs, w', v'⟩ := root
    cases cs with
    | none => simp [Node.get] at hr
    | some cs =>
      simp only [Node.get] at hr
      cases hc : cs[i]? with
      | none => simp [hc] at hr
      | some ch =>
        simp only [hc] at hr
        simp only [Node.modify, hc] at hq
        cases q with
        | nil =>
          simp only [Node.get, Option.some.injEq] at hq
          subst hq
          exact .inr (.inr ⟨by simp, _, rfl, rfl, rfl, by simp [Node.arity, Node.children]⟩)
        | cons j q =>
          simp only [Node.get] at hq
          by_cases hij : i = j
          · subst hij
            have hlt : i < cs.length := by
              rw [List.getElem?_eq_some_iff] at hc; exact hc.1
            rw [List.getElem?_set_self hlt] at hq
            simp only at hq
            rcases ih hr hq with ⟨k, hk, rfl, hn⟩ | ⟨rfl, hn⟩ | ⟨hne, n, hn, hrest⟩
            · exact .inl ⟨k, hk, rfl, hn⟩
            · exact .inr (.inl ⟨rfl, hn⟩)
            · exact .inr (.inr ⟨by simpa using hne, n, by simp [Node.get, hc, hn], hrest⟩)
          · rw [List.getElem?_set_ne hij] at hq
            refine .inr (.inr ⟨by intro h; injection h with h1; exact hij h1.symm, n', ?_, rfl, rfl, rfl⟩)
            simp only [Node.get]
            exact hq

theorem get_modify_expand_isSome (c : Config) {w v : Nat} : ∀ {p : List Nat} {root : Node}, root.get p = some (.mk none w v) →
    ∀ {q}, (root.get q).isSome → ((root.modify c.expand p).get q).isSome := by
  intro p
  induction p with
  | nil =>
    intro root hr q hq
    simp only [Node.get, Option.some.injEq] at hr
    subst hr
    cases q with
    | nil => simp [Node.get]
    | cons => simp [Node.get] at hq
  | cons i p ih =>
    intro root hr q hq
    obtain ⟨cs, w', v'⟩ := root
    cases cs with
    | none => simp [Node.get] at hr
    | some cs =>
      simp only [Node.get] at hr
      cases hc : cs[i]? with
      | none => simp [hc] at hr
      | some ch =>
        simp only [hc] at hr
        simp only [Node.modify, hc]
        cases q with
        | nil => simp [Node.get]
        | cons j q =>
          simp only [Node.get] at hq ⊢
          by_cases hij : i = j
          · subst hij
            have hlt : i < cs.length := by
              rw [List.getElem?_eq_some_iff] at hc; exact hc.1
            rw [List.getElem?_set_self hlt]
            rw [hc] at hq
            exact ih hr hq
          · rw [List.getElem?_set_ne hij]
            exact hq

theorem get_expanded_child (c : Config) {w v : Nat} {i : Nat} (hi : i < branchingFactor c.splits) :
    ∀ {p : List Nat} {root : Node}, root.get p = some (.mk none w v) →
    (root.modify c.expand p).get (p ++ [i]) = some c.newNode := by
  intro p
  induction p with
  | nil =>
    intro root hr
    simp only [Node.get, Option.some.injEq] at hr
    subst hr
    simp [Node.modify, Config.expand, Node.get, Config.newChildren, List.getElem?_replicate, hi]
  | cons j p ih =>
    intro root hr
    obtain ⟨cs, w', v'⟩ := root
    cases cs with
    | none => simp [Node.get] at hr
    | some cs =>
      simp only [Node.get] at hr
      cases hc : cs[j]? with
      | none => simp [hc] at hr
      | some ch =>
        simp only [hc] at hr
        have hlt : j < cs.length := by
          rw [List.getElem?_eq_some_iff] at hc; exact hc.1
        simp only [Node.modify, hc, List.cons_append, Node.get, List.getElem?_set_self hlt]
        exact ih hr

/-- What `update_stats` does to the nodes below the root. -/
theorem get_countPath (won : Bool) : ∀ {path : List Nat} {root : Node} {q n'}, (countPath won root path).get q = some n' →
    ∃ n, root.get q = some n ∧ n'.arity = n.arity ∧
      n'.visits = n.visits + (if q ≠ [] ∧ q <+: path then 1 else 0) ∧
      n'.wins = n.wins + (if (q ≠ [] ∧ q <+: path) ∧ won then 1 else 0) := by
  intro path
  induction path with
  | nil =>
    intro root q n' hq
    simp only [countPath] at hq
    refine ⟨n', hq, rfl, ?_, ?_⟩
    · rw [if_neg]; rfl
      rintro ⟨h1, h2⟩; exact h1 (List.prefix_nil.1 h2)
    · rw [if_neg]; rfl
      rintro ⟨⟨h1, h2⟩, _⟩; exact h1 (List.prefix_nil.1 h2)
  | cons i p ih =>
    intro root q n' hq
    obtain ⟨cs, w, v⟩ := root
    cases cs with
    | none =>
      simp only [countPath] at hq
      cases q with
      | nil => exact ⟨n', hq, rfl, by simp, by simp⟩
      | cons => simp [Node.get] at hq
    | some cs =>
      cases hc : cs[i]? with
      | none =>
        simp only [countPath, hc] at hq
        cases q with
        | nil => exact ⟨n', hq, rfl, by simp, by simp⟩
        | cons j q =>
          refine ⟨n', hq, rfl, ?_, ?_⟩
          · rw [if_neg]; rfl
            rintro ⟨_, h2⟩
            have := (List.cons_prefix_cons.1 h2).1
            subst this
            simp [Node.get, hc] at hq
          · rw [if_neg]; rfl
            rintro ⟨⟨_, h2⟩, _⟩
            have := (List.cons_prefix_cons.1 h2).1
            subst this
            simp [Node.get, hc] at hq
      | some ch =>
        have hlt : i < cs.length := by
          rw [List.getElem?_eq_some_iff] at hc; exact hc.1
        simp only [countPath, hc] at hq
        cases q with
        | nil =>
          simp only [Node.get, Option.some.injEq] at hq
          subst hq
          exact ⟨_, rfl, by simp [Node.arity, Node.children], by simp [Node.visits], by simp [Node.wins]⟩
        | cons j q =>
          simp only [Node.get] at hq
          by_cases hij : i = j
          · subst hij
            rw [List.getElem?_set_self hlt] at hq
            simp only at hq
            obtain ⟨n, hn, ha, hv, hw⟩ := ih hq
            obtain ⟨ccs, cw, cv⟩ := ch
            cases q with
            | nil =>
              simp only [Node.get, Option.some.injEq, Node.count] at hn
              subst hn
              refine ⟨.mk ccs cw cv, by simp [Node.get, hc], ha, ?_, ?_⟩
              · rw [hv]; simp [Node.visits]
              · rw [hw]; cases won <;> simp [Node.wins]
            | cons k q =>
              refine ⟨n, ?_, ha, ?_, ?_⟩
              · simp only [Node.get, hc]
                cases ccs with
                | none => simp [Node.get, Node.count] at hn
                | some ccs => simpa [Node.get, Node.count] using hn
              · rw [hv]; simp [List.cons_prefix_cons]
              · rw [hw]; simp [List.cons_prefix_cons]
          · rw [List.getElem?_set_ne hij] at hq
            refine ⟨n', by simp only [Node.get]; exact hq, rfl, ?_, ?_⟩
            · rw [if_neg]; rfl
              rintro ⟨_, h2⟩; exact hij (List.cons_prefix_cons.1 h2).1.symm
            · rw [if_neg]; rfl
              rintro ⟨⟨_, h2⟩, _⟩; exact hij (List.cons_prefix_cons.1 h2).1.symm

theorem get_updateStats (won : Bool) {path : List Nat} {root : Node} {q n'} (hq : (updateStats won root path).get q = some n') :
    ∃ n, root.get q = some n ∧ n'.arity = n.arity ∧
      n'.visits = n.visits + (if q <+: path then 1 else 0) ∧
      n'.wins = n.wins + (if q <+: path ∧ won then 1 else 0) := by
  unfold updateStats at hq
  cases q with
  | nil =>
    simp only [Node.get, Option.some.injEq] at hq
    have h1 := get_countPath won (path := path) (root := root) (q := []) (n' := countPath won root path) rfl
    obtain ⟨n, hn, ha, hv, hw⟩ := h1
    refine ⟨n, hn, ?_, ?_, ?_⟩
    · rw [← ha, ← hq]; cases countPath won root path; rfl
    · rw [if_neg (by simp)] at hv
      rw [if_pos List.nil_prefix, ← hq, ← Nat.add_zero n.visits, ← hv]
      cases countPath won root path; rfl
    · rw [if_neg (by simp)] at hw
      rw [← Nat.add_zero n.wins, ← hw, ← hq]
      cases countPath won root path
      cases won <;> simp [Node.count, Node.wins]
  | cons j q =>
    have h1 : (countPath won root path).get (j :: q) = some n' := by
      generalize countPath won root path = r at hq
      obtain ⟨cs, w, v⟩ := r
      cases cs <;> simpa [Node.count, Node.get] using hq
    obtain ⟨n, hn, ha, hv, hw⟩ := get_countPath won h1
    exact ⟨n, hn, ha, by simpa using hv, by simpa using hw⟩

theorem get_countPath_isSome (won : Bool) : ∀ {path : List Nat} {root : Node} {q}, (root.get q).isSome →
    ((countPath won root path).get q).isSome := by
  intro path
  induction path with
  | nil => intro root q hq; exact hq
  | cons i p ih =>
    intro root q hq
    obtain ⟨cs, w, v⟩ := root
    cases cs with
    | none => exact hq
    | some cs =>
      cases hc : cs[i]? with
      | none => simp only [countPath, hc]; exact hq
      | some ch =>
        have hlt : i < cs.length := by
          rw [List.getElem?_eq_some_iff] at hc; exact hc.1
        simp only [countPath, hc]
        cases q with
        | nil => simp [Node.get]
        | cons j q =>
          simp only [Node.get] at hq ⊢
          by_cases hij : i = j
          · subst hij
            rw [List.getElem?_set_self hlt]
            rw [hc] at hq
            simp only at hq ⊢
            apply ih
            obtain ⟨ccs, cw, cv⟩ := ch
            cases q with
            | nil => simp [Node.get]
            | cons k q => cases ccs <;> simpa [Node.get, Node.count] using hq
          · rw [List.getElem?_set_ne hij]; exact hq

theorem get_updateStats_isSome (won : Bool) {path : List Nat} {root : Node} {q} (hq : (root.get q).isSome) :
    ((updateStats won root path).get q).isSome := by
  unfold updateStats
  have := get_countPath_isSome won (path := path) hq
  generalize countPath won root path = r at this
  obtain ⟨cs, w, v⟩ := r
  cases q with
  | nil => simp [Node.get]
  | cons j q => cases cs <;> simpa [Node.count, Node.get] using this

/-! ### Walking down -/

/-- Every expanded node has `bf` children. -/
def Uniform (bf : Nat) (n : Node) : Prop := ∀ p m, n.get p = some m → ∀ k, m.arity = some k → k = bf

theorem Uniform.child {bf : Nat} {cs : List Node} {w v : Nat} (h : Uniform bf (.mk (some cs) w v)) {i : Nat} {c : Node}
    (hi : cs[i]? = some c) : Uniform bf c := by
  intro p m hm
  exact h (i :: p) m (by simp [Node.get, hi, hm])

theorem Uniform.length {bf : Nat} {cs : List Node} {w v : Nat} (h : Uniform bf (.mk (some cs) w v)) : cs.length = bf :=
  h [] _ rfl _ rfl

/-- A choice among the children satisfies `Good`. -/
def GoodChoice (Good : Nat → List Node → Nat → Prop) (choose : Nat → Nat → List Node → Nat) : Prop :=
  ∀ d v cs, cs ≠ [] → choose d v cs < cs.length ∧ Good v cs (choose d v cs)

mutual
theorem walk_spec {Good : Nat → List Node → Nat → Prop} {choose : Nat → Nat → List Node → Nat} (hch : GoodChoice Good choose)
    {bf : Nat} (hbf : 0 < bf) : ∀ (d : Nat) (n : Node), Uniform bf n →
    (∃ w v, n.get (n.walk choose d) = some (.mk none w v)) ∧
    ∀ q i, q ++ [i] <+: n.walk choose d → ∃ cs w v, n.get q = some (.mk (some cs) w v) ∧ Good v cs i
  | d, .mk none w v, _ => by
    refine ⟨⟨w, v, rfl⟩, ?_⟩
    intro q i h
    simp [Node.walk] at h
  | d, .mk (some cs) w v, hu => by
    have hlen := hu.length
    have hne : cs ≠ [] := by intro h; rw [h] at hlen; simp at hlen; omega
    obtain ⟨h1, h2⟩ := hch d v cs hne
    obtain ⟨c, hc⟩ : ∃ c, cs[choose d v cs]? = some c := ⟨_, List.getElem?_eq_getElem h1⟩
    have ih := walkIn_spec hch hbf (d + 1) cs (fun i c hi => hu.child hi) (choose d v cs) c hc
    obtain ⟨⟨w', v', hg⟩, hall⟩ := ih
    simp only [Node.walk]
    refine ⟨⟨w', v', by simp only [Node.get, hc]; exact hg⟩, ?_⟩
    intro q i h
    cases q with
    | nil =>
      have : i = choose d v cs := by simpa using h
      subst this
      exact ⟨cs, w, v, rfl, h2⟩
    | cons j q =>
      rw [List.cons_append, List.cons_prefix_cons] at h
      obtain ⟨rfl, h⟩ := h
      obtain ⟨cs', w', v', hq, hgood⟩ := hall q i h
      exact ⟨cs', w', v', by simp only [Node.get, hc]; exact hq, hgood⟩

theorem walkIn_spec {Good : Nat → List Node → Nat → Prop} {choose : Nat → Nat → List Node → Nat} (hch : GoodChoice Good choose)
    {bf : Nat} (hbf : 0 < bf) : ∀ (d : Nat) (cs : List Node), (∀ (i : Nat) c, cs[i]? = some c → Uniform bf c) →
    ∀ (i : Nat) c, cs[i]? = some c →
    (∃ w v, c.get (Node.walkIn choose d cs i) = some (.mk none w v)) ∧
    ∀ q j, q ++ [j] <+: Node.walkIn choose d cs i → ∃ cs' w v, c.get q = some (.mk (some cs') w v) ∧ Good v cs' j
  | d, [], _ => by intro i c h; simp at h
  | d, a :: cs, hu => by
    intro i c hi
    cases i with
    | zero =>
      simp only [List.getElem?_cons_zero, Option.some.injEq] at hi
      subst hi
      simp only [Node.walkIn]
      exact walk_spec hch hbf d a (hu 0 a rfl)
    | succ i =>
      simp only [Node.walkIn]
      exact walkIn_spec hch hbf d cs (fun j c hj => hu (j + 1) c (by simpa using hj)) i c (by simpa using hi)
end

theorem get_lt {bf : Nat} : ∀ {p : List Nat} {root : Node}, Uniform bf root → (root.get p).isSome → ∀ i ∈ p, i < bf := by
  intro p
  induction p with
  | nil => intro root _ _ i hi; simp at hi
  | cons j p ih =>
    intro root hu hs i hi
    obtain ⟨cs, w, v⟩ := root
    cases cs with
    | none => simp [Node.get] at hs
    | some cs =>
      simp only [Node.get] at hs
      cases hc : cs[j]? with
      | none => simp [hc] at hs
      | some c =>
        simp only [hc] at hs
        rcases List.mem_cons.1 hi with rfl | hi
        · rw [← hu.length]
          exact (List.getElem?_eq_some_iff.1 hc).1
        · exact ih (hu.child hc) hs i hi

theorem get_leaf_append {root : Node} {p : List Nat} {w v : Nat} (h : root.get p = some (.mk none w v)) (i : Nat) :
    root.get (p ++ [i]) = none := by
  rw [get_append, h]; rfl

/-- An action is chosen among the children with the greatest urgency. -/
def MostUrgent (c : Config) (v : Nat) (cs : List Node) (i : Nat) : Prop :=
  ∃ n, cs[i]? = some n ∧ ∀ m ∈ cs, c.urgency v m.wins m.visits ≤ c.urgency v n.wins n.visits

theorem goodChoice_choose (c : Config) (starts : Nat → Nat) :
    GoodChoice (MostUrgent c) (fun depth => c.choose (starts depth)) := by
  intro d v cs hne
  obtain ⟨n, hn, hle⟩ := choose_spec c (starts d) v hne
  exact ⟨(List.getElem?_eq_some_iff.1 hn).1, n, hn, hle⟩

/-- What `Simulation.run` does. -/
structure RunSpec (c : Config) (root : Node) (path : List Nat) (after : Node) : Prop where
  leaf : ∃ w v, after.get path = some (.mk none w v)
  old : ∀ q, (root.get q).isSome → (after.get q).isSome
  new : ∀ q n', after.get q = some n' →
    (∃ n, root.get q = some n ∧ n'.wins = n.wins ∧ n'.visits = n.visits) ∨
    (root.get q = none ∧ n' = c.newNode ∧ q.length ≤ c.maxDepth)
  uniform : Uniform (branchingFactor c.splits) after
  choice : ∀ q i, q ++ [i] <+: path → ∃ cs w v, after.get q = some (.mk (some cs) w v) ∧
    ∃ n, cs[i]? = some n ∧ ∀ m ∈ cs, c.urgency v m.wins m.visits ≤ c.urgency v n.wins n.visits
  expanded : path ≠ [] ∨ root.arity = none

theorem run_spec {c : Config} (hbf : 0 < branchingFactor c.splits) (starts : Nat → Nat) {root : Node}
    (hu : Uniform (branchingFactor c.splits) root) : RunSpec c root (c.run starts root).1 (c.run starts root).2 := by
  obtain ⟨⟨w, v, hleaf⟩, hch⟩ := walk_spec (goodChoice_choose c starts) hbf 0 root hu
  have hexp : root.walk (fun depth => c.choose (starts depth)) 0 ≠ [] ∨ root.arity = none := by
    obtain ⟨cs, w, v⟩ := root
    cases cs with
    | none => exact .inr rfl
    | some cs => left; simp [Node.walk]
  unfold Config.run
  simp only [hleaf]
  generalize root.walk (fun depth => c.choose (starts depth)) 0 = p at *
  by_cases hcond : p.length < c.maxDepth ∧ c.isRipe (.mk none w v)
  · rw [if_pos hcond]
    simp only
    have hne : c.newChildren ≠ [] := by
      intro h
      have := congrArg List.length h
      simp [Config.newChildren] at this
      omega
    obtain ⟨n, hn, hle⟩ := choose_spec c (starts p.length) v hne
    have hv : (Node.mk none w v).visits = v := rfl
    rw [hv]
    generalize hi : c.choose (starts p.length) v c.newChildren = i at *
    have hilt : i < branchingFactor c.splits := by
      have := (List.getElem?_eq_some_iff.1 hn).1
      simpa [Config.newChildren] using this
    refine ⟨⟨_, _, get_expanded_child c hilt hleaf⟩, fun q => get_modify_expand_isSome c hleaf, ?_, ?_, ?_, ?_⟩
    · intro q n' hq
      rcases get_modify_expand c hleaf hq with ⟨k, _, rfl, hn'⟩ | ⟨rfl, hn'⟩ | ⟨_, m, hm, h1, h2, _⟩
      · exact .inr ⟨get_leaf_append hleaf k, hn', by simp; omega⟩
      · exact .inl ⟨_, hleaf, by rw [hn']; rfl, by rw [hn']; rfl⟩
      · exact .inl ⟨m, hm, h1, h2⟩
    · intro q m hm k hk
      rcases get_modify_expand c hleaf hm with ⟨j, _, rfl, hn'⟩ | ⟨rfl, hn'⟩ | ⟨_, m', hm', _, _, ha⟩
      · rw [hn'] at hk; simp [Node.arity, Node.children, Config.newNode] at hk
      · rw [hn'] at hk; simp [Node.arity, Node.children, Config.newChildren] at hk; exact hk.symm
      · rw [ha] at hk; exact hu q m' hm' k hk
    · intro q j hq
      by_cases hqp : q = p
      · subst hqp
        have hji : j = i := by
          have h1 := List.IsPrefix.eq_of_length hq (by simp)
          simpa using h1
        subst hji
        refine ⟨c.newChildren, w, v, ?_, n, hn, hle⟩
        obtain ⟨r, hr⟩ := Option.isSome_iff_exists.1 (get_modify_expand_isSome c hleaf (q := q) (by rw [hleaf]; rfl))
        rw [hr]
        rcases get_modify_expand c hleaf hr with ⟨k, _, he, _⟩ | ⟨_, hn'⟩ | ⟨hne', _⟩
        · exact absurd (congrArg List.length he) (by simp)
        · rw [hn']
        · exact absurd rfl hne'
      · -- an earlier choice
        have hq' : q ++ [j] <+: p := by
          rcases List.prefix_or_prefix_of_prefix hq (List.prefix_append p [i]) with h | h
          · exact h
          · have hlen := h.length_le
            have hlen2 := hq.length_le
            simp only [List.length_append, List.length_singleton] at hlen hlen2
            rcases Nat.lt_or_ge p.length (q.length + 1) with hlt | hge
            · exfalso
              have hpq : p.length = q.length := by omega
              have hqpre : q <+: p ++ [i] := (List.prefix_append q [j]).trans hq
              have := List.prefix_of_prefix_length_le hqpre (List.prefix_append p [i]) (by omega)
              exact hqp (this.eq_of_length hpq.symm)
            · exact List.prefix_of_prefix_length_le hq (List.prefix_append p [i]) (by simpa using hge)
        obtain ⟨cs, w', v', hget, m, hm, hmle⟩ := hch q j hq'
        obtain ⟨n', hn'⟩ := Option.isSome_iff_exists.1 (get_modify_expand_isSome c hleaf (q := q) (by rw [hget]; rfl))
        -- the children, in the expanded tree
        obtain ⟨cs', w'', v''⟩ := n'
        rcases get_modify_expand c hleaf hn' with ⟨k, _, he, _⟩ | ⟨he, _⟩ | ⟨_, m', hm', hw1, hv1, ha⟩
        · subst he
          have := hq'.length_le
          simp at this
        · exact absurd he hqp
        · rw [hget] at hm'
          cases hm'
          simp only [Node.wins, Node.visits] at hw1 hv1
          subst hw1 hv1
          cases cs' with
          | none => simp [Node.arity, Node.children] at ha
          | some cs' =>
            simp only [Node.arity, Node.children, Option.map_some, Option.some.injEq] at ha
            have hstat : ∀ (k : Nat) (a : Node), cs'[k]? = some a → ∃ b : Node, cs[k]? = some b ∧ a.wins = b.wins ∧ a.visits = b.visits := by
              intro k a hka
              have hga : (root.modify c.expand p).get (q ++ [k]) = some a := by
                rw [get_append, hn']; simp [Node.get, hka]
              rcases get_modify_expand c hleaf hga with ⟨k', _, he, _⟩ | ⟨he, hn2⟩ | ⟨_, m2, hm2, hw2, hv2, _⟩
              · exact absurd (List.append_inj' he rfl).1 hqp
              · have : root.get (q ++ [k]) = some (.mk none w v) := by rw [he]; exact hleaf
                rw [get_append, hget] at this
                simp only [Option.bind_some, Node.get] at this
                cases hck : cs[k]? with
                | none => simp [hck] at this
                | some b =>
                  simp only [hck, Option.some.injEq] at this
                  refine ⟨b, rfl, ?_, ?_⟩
                  · rw [hn2, this]; rfl
                  · rw [hn2, this]; rfl
              · rw [get_append, hget] at hm2
                simp only [Option.bind_some, Node.get] at hm2
                cases hck : cs[k]? with
                | none => simp [hck] at hm2
                | some b =>
                  simp only [hck, Option.some.injEq] at hm2
                  subst hm2
                  exact ⟨b, rfl, hw2, hv2⟩
            have hjlt : j < cs'.length := by rw [ha]; exact (List.getElem?_eq_some_iff.1 hm).1
            obtain ⟨b, hb, hbw, hbv⟩ := hstat j cs'[j] (List.getElem?_eq_getElem hjlt)
            rw [hm] at hb
            cases hb
            refine ⟨cs', _, _, hn', cs'[j], List.getElem?_eq_getElem hjlt, ?_⟩
            intro x hx
            obtain ⟨k, hk, rfl⟩ := List.mem_iff_getElem.1 hx
            obtain ⟨b, hb, hbw', hbv'⟩ := hstat k cs'[k] (List.getElem?_eq_getElem hk)
            rw [hbw, hbv, hbw', hbv']
            exact hmle b (List.mem_of_getElem? hb)
    · left; simp
  · rw [if_neg hcond]
    refine ⟨⟨w, v, hleaf⟩, fun q h => h, ?_, hu, ?_, hexp⟩
    · intro q n' hq; exact .inl ⟨n', hq, rfl, rfl⟩
    · intro q i hq; exact hch q i hq

end Gomill.Mcts
