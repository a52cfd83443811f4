import Verif.Spec.MctsReports
import Verif.Props.MctsTuner
import Verif.Lemmas.Text
import Mathlib.Data.List.Nodup
/-
Sorting, generations of the tree and texts, for C86.
-/
namespace Gomill.Mcts
open Py MctsSpec

/-! ### Sorting -/

variable {α : Type}

theorem insertBy_perm (le : α → α → Bool) (x : α) : ∀ l : List α, (insertBy le x l).Perm (x :: l)
  | [] => .refl _
  | y :: l => by
    unfold insertBy
    split
    · exact .refl _
    · exact ((insertBy_perm le x l).cons y).trans (.swap x y l)

theorem sortBy_perm (le : α → α → Bool) : ∀ l : List α, (sortBy le l).Perm l
  | [] => .refl _
  | x :: l => (insertBy_perm le x (sortBy le l)).trans ((sortBy_perm le l).cons x)

/-- Sorting makes a list sorted by a relation `R`, if `le` agrees with `R` for items in the original order. -/
theorem sortBy_pairwise (le : α → α → Bool) (R : α → α → Prop) (before : α → α → Prop)
    (htrans : ∀ a b c, R a b → R b c → R a c) (hle : ∀ a b, before a b → le a b = true → R a b) (hnle : ∀ a b, before a b → le a b = false → R b a) :
    ∀ l : List α, l.Pairwise before → (sortBy le l).Pairwise R := by
  intro l
  induction l with
  | nil => intro _; exact .nil
  | cons x l ih =>
    intro h
    obtain ⟨h1, h2⟩ := List.pairwise_cons.1 h
    have ih := ih h2
    have hx : ∀ y ∈ sortBy le l, before x y := fun y hy => h1 y ((sortBy_perm le l).mem_iff.1 hy)
    show (insertBy le x (sortBy le l)).Pairwise R
    generalize sortBy le l = s at ih hx
    clear h h1 h2
    induction s with
    | nil => exact List.pairwise_singleton _ _
    | cons y s ihs =>
      obtain ⟨k1, k2⟩ := List.pairwise_cons.1 ih
      unfold insertBy
      split
      · rename_i hl
        refine List.pairwise_cons.2 ⟨?_, ih⟩
        intro z hz
        have hxy := hle x y (hx y List.mem_cons_self) hl
        rcases List.mem_cons.1 hz with rfl | hz
        · exact hxy
        · exact htrans _ _ _ hxy (k1 z hz)
      · rename_i hl
        refine List.pairwise_cons.2 ⟨?_, ihs k2 (fun z hz => hx z (List.mem_cons_of_mem _ hz))⟩
        intro z hz
        rcases List.mem_cons.1 ((insertBy_perm le x s).mem_iff.1 hz) with rfl | hz
        · exact hnle _ y (hx y List.mem_cons_self) (by simpa using hl)
        · exact k1 z hz

theorem lex_trans {p q r : List Nat} (h : List.Lex (· < ·) p q) (h' : List.Lex (· < ·) q r) : List.Lex (· < ·) p r := by
  induction h generalizing r with
  | nil => cases h' <;> exact .nil
  | rel hab => cases h' with
    | rel hbc => exact .rel (Nat.lt_trans hab hbc)
    | cons _ => exact .rel hab
  | cons _ ih => cases h' with
    | rel hbc => exact .rel hbc
    | cons h'' => exact .cons (ih h'')

theorem lex_irrefl {p : List Nat} : ¬ List.Lex (· < ·) p p := by
  induction p with
  | nil => intro h; cases h
  | cons a p ih =>
    intro h
    cases h with
    | rel h => exact Nat.lt_irrefl _ h
    | cons h => exact ih h

theorem pathLe_lex : ∀ {p q : List Nat}, p ≠ q → (pathLe p q = true → List.Lex (· < ·) p q) ∧ (pathLe p q = false → List.Lex (· < ·) q p)
  | [], [], h => absurd rfl h
  | [], _ :: _, _ => ⟨fun _ => .nil, fun h => by cases h⟩
  | _ :: _, [], _ => ⟨fun h => (by cases h), fun _ => .nil⟩
  | a :: p, b :: q, h => by
    unfold pathLe
    split
    · rename_i hab
      subst hab
      have hpq : p ≠ q := fun he => h (by rw [he])
      exact ⟨fun h => .cons ((pathLe_lex hpq).1 h), fun h => .cons ((pathLe_lex hpq).2 h)⟩
    · rename_i hab
      refine ⟨fun h => .rel (by simpa using h), fun h => .rel ?_⟩
      have : ¬ a < b := by simpa using h
      omega

/-! ### The generations -/

/-- The list of all the nodes at a depth, in order. -/
structure Generation (root : Node) (depth : Nat) (l : List (List Nat × Node)) : Prop where
  mem : ∀ x, x ∈ l ↔ x.1.length = depth ∧ root.get x.1 = some x.2
  order : l.Pairwise (fun a b => List.Lex (· < ·) a.1 b.1)

theorem generation_zero (root : Node) : Generation root 0 [([], root)] := by
  refine ⟨?_, List.pairwise_singleton _ _⟩
  rintro ⟨p, n⟩
  rw [List.mem_singleton]
  constructor
  · intro h; injection h with h1 h2; subst h1; subst h2; exact ⟨rfl, rfl⟩
  · rintro ⟨h1, h2⟩
    have h1 : p = [] := List.eq_nil_of_length_eq_zero h1
    subst h1
    have h2 : some root = some n := h2
    injection h2 with h2
    rw [h2]

theorem mem_childPaths {p : List Nat} {n : Node} {x : List Nat × Node} :
    x ∈ childPaths (p, n) ↔ ∃ cs i, n.children = some cs ∧ cs[i]? = some x.2 ∧ x.1 = p ++ [i] := by
  unfold childPaths
  cases hc : n.children with
  | none =>
    simp only
    constructor
    · intro h; cases h
    · rintro ⟨cs, i, h, _⟩; cases h
  | some cs =>
    simp only
    constructor
    · intro h
      obtain ⟨⟨m, i⟩, hm, rfl⟩ := List.mem_map.1 h
      exact ⟨cs, i, rfl, List.mem_zipIdx_iff_getElem?.1 hm, rfl⟩
    · rintro ⟨cs', i, h, h1, h2⟩
      injection h with h; subst h
      obtain ⟨q, m⟩ := x
      refine List.mem_map.2 ⟨(m, i), List.mem_zipIdx_iff_getElem?.2 h1, ?_⟩
      simp only at h2 ⊢; rw [h2]

theorem lex_snoc (p : List Nat) {a b : Nat} (h : a < b) : List.Lex (· < ·) (p ++ [a]) (p ++ [b]) := by
  induction p with
  | nil => exact .rel h
  | cons x p ih => exact .cons ih

theorem childPaths_order (p : List Nat) (n : Node) : (childPaths (p, n)).Pairwise (fun a b => List.Lex (· < ·) a.1 b.1) := by
  unfold childPaths
  split
  · exact .nil
  · rename_i cs _
    rw [List.pairwise_map]
    have key : ∀ (cs : List Node) (k : Nat), (cs.zipIdx k).Pairwise (fun a b => a.2 < b.2) := by
      intro cs
      induction cs with
      | nil => intro k; exact .nil
      | cons c cs ih =>
        intro k
        rw [List.zipIdx_cons]
        refine List.pairwise_cons.2 ⟨?_, ih _⟩
        rintro ⟨m, i⟩ hm
        have := List.le_snd_of_mem_zipIdx hm
        simp only at this ⊢; omega
    refine (key cs 0).imp ?_
    intro a b hab
    exact lex_snoc p hab

theorem lex_append {p q : List Nat} (h : List.Lex (· < ·) p q) (hl : p.length = q.length) (a b : List Nat) : List.Lex (· < ·) (p ++ a) (q ++ b) := by
  induction h with
  | nil => simp at hl
  | rel h => exact .rel h
  | cons _ ih => exact .cons (ih (by simpa using hl))

theorem generation_next {root : Node} {d : Nat} {l : List (List Nat × Node)} (h : Generation root d l) : Generation root (d + 1) (nextGeneration l) := by
  refine ⟨?_, ?_⟩
  · rintro ⟨p, n⟩
    unfold nextGeneration
    rw [List.mem_flatten]
    constructor
    · rintro ⟨_, hm, hx⟩
      obtain ⟨⟨q, m⟩, hq, rfl⟩ := List.mem_map.1 hm
      obtain ⟨h1, h2⟩ := (h.mem (q, m)).1 hq
      obtain ⟨cs, i, h3, h4, h5⟩ := mem_childPaths.1 hx
      simp only at h1 h2 h3 h4 h5
      subst h5
      refine ⟨by simp [h1], ?_⟩
      show root.get (q ++ [i]) = some n
      rw [get_append, h2]
      cases m with
      | mk c w v =>
        simp only [Node.children] at h3
        subst h3
        simp only [Option.bind_some, Node.get, h4]
    · rintro ⟨h1, h2⟩
      simp only at h1 h2
      obtain ⟨q, i, rfl⟩ : ∃ q i, p = q ++ [i] := by
        have hne : p ≠ [] := by intro he; subst he; simp at h1
        exact ⟨p.dropLast, p.getLast hne, (List.dropLast_append_getLast hne).symm⟩
      rw [get_append] at h2
      cases hq : root.get q with
      | none => rw [hq] at h2; cases h2
      | some m =>
        rw [hq] at h2
        have hm : (q, m) ∈ l := (h.mem _).2 ⟨by simpa using h1, hq⟩
        refine ⟨_, List.mem_map.2 ⟨_, hm, rfl⟩, mem_childPaths.2 ?_⟩
        cases m with
        | mk c w v =>
          cases c with
          | none => simp only [Option.bind_some, Node.get] at h2; cases h2
          | some cs =>
            simp only [Option.bind_some, Node.get] at h2
            cases hc : cs[i]? with
            | none => rw [hc] at h2; cases h2
            | some c =>
              rw [hc] at h2
              simp only at h2
              injection h2 with h2
              subst h2
              exact ⟨cs, i, rfl, hc, rfl⟩
  · unfold nextGeneration
    rw [List.pairwise_flatten]
    refine ⟨?_, ?_⟩
    · intro s hs
      obtain ⟨⟨p, n⟩, _, rfl⟩ := List.mem_map.1 hs
      exact childPaths_order p n
    · rw [List.pairwise_map]
      have hlen : ∀ x ∈ l, x.1.length = d := fun x hx => ((h.mem x).1 hx).1
      have := h.order
      refine List.Pairwise.imp_of_mem ?_ this
      rintro ⟨p, n⟩ ⟨q, m⟩ hp hq hlex x hx y hy
      obtain ⟨_, i, _, _, h1⟩ := mem_childPaths.1 hx
      obtain ⟨_, j, _, _, h2⟩ := mem_childPaths.1 hy
      rw [h1, h2]
      exact lex_append hlex ((hlen _ hp).trans (hlen _ hq).symm) _ _

/-! ### The nodes to show -/

/-- Which nodes `sorted(nlargest(n, …))` gives. -/
theorem shown_spec {root : Node} {d : Nat} {l : List (List Nat × Node)} (h : Generation root d l) (n : Int) :
    let s := sortBy (fun a b => pathLe a.1 b.1) (nlargest n l)
    (s.map Prod.fst).Pairwise (List.Lex (· < ·)) ∧ (∀ x ∈ s, x ∈ l) ∧ s.length ≤ n.toNat ∧ (s.length < n.toNat → ∀ y ∈ l, y ∈ s) ∧
    ∀ x ∈ s, ∀ y ∈ l, y ∉ s → y.2.visits < x.2.visits ∨ (y.2.visits = x.2.visits ∧ List.Lex (· < ·) x.1 y.1) := by
  have hperm : (sortBy (fun a b => decide (b.2.visits ≤ a.2.visits)) l).Perm l := sortBy_perm _ l
  have hsort : (sortBy (fun a b : List Nat × Node => decide (b.2.visits ≤ a.2.visits)) l).Pairwise
      (fun a b => b.2.visits < a.2.visits ∨ (b.2.visits = a.2.visits ∧ List.Lex (· < ·) a.1 b.1)) := by
    refine sortBy_pairwise _ _ (fun a b => List.Lex (· < ·) a.1 b.1) ?_ ?_ ?_ l h.order
    · rintro a b c (h1 | ⟨h1, h1'⟩) (h2 | ⟨h2, h2'⟩)
      · exact .inl (Nat.lt_trans h2 h1)
      · exact .inl (by omega)
      · exact .inl (by omega)
      · exact .inr ⟨by omega, lex_trans h1' h2'⟩
    · intro a b hb hle
      have : b.2.visits ≤ a.2.visits := by simpa using hle
      rcases Nat.lt_or_eq_of_le this with h | h
      · exact .inl h
      · exact .inr ⟨h, hb⟩
    · intro a b _ hle
      have : ¬ b.2.visits ≤ a.2.visits := by simpa using hle
      exact .inl (by omega)
  have hdist : (l.map Prod.fst).Nodup := by
    unfold List.Nodup
    rw [List.pairwise_map]
    refine h.order.imp ?_
    intro a b hab he
    rw [he] at hab
    exact lex_irrefl hab
  have hnl : nlargest n l = (sortBy (fun a b => decide (b.2.visits ≤ a.2.visits)) l).take n.toNat := rfl
  rw [hnl]
  generalize sortBy (fun a b : List Nat × Node => decide (b.2.visits ≤ a.2.visits)) l = t at hperm hsort
  have hp2 := sortBy_perm (fun a b : List Nat × Node => pathLe a.1 b.1) (t.take n.toNat)
  have hdt : (t.map Prod.fst).Nodup := (hperm.map Prod.fst).nodup_iff.2 hdist
  have hmem : ∀ x, x ∈ sortBy (fun a b : List Nat × Node => pathLe a.1 b.1) (t.take n.toNat) ↔ x ∈ t.take n.toNat := fun x => hp2.mem_iff
  have hlen : (sortBy (fun a b : List Nat × Node => pathLe a.1 b.1) (t.take n.toNat)).length = min n.toNat t.length := by
    rw [hp2.length_eq, List.length_take]
  refine ⟨?_, ?_, ?_, ?_, ?_⟩
  · rw [List.pairwise_map]
    refine sortBy_pairwise _ (fun a b : List Nat × Node => List.Lex (· < ·) a.1 b.1) (fun a b : List Nat × Node => a.1 ≠ b.1) (fun a b c => lex_trans) ?_ ?_ _ ?_
    · intro a b hne hle; exact (pathLe_lex hne).1 hle
    · intro a b hne hle; exact (pathLe_lex hne).2 hle
    · have : ((t.take n.toNat).map Prod.fst).Nodup := by rw [List.map_take]; exact hdt.sublist (List.take_sublist _ _)
      unfold List.Nodup at this
      rwa [List.pairwise_map] at this
  · intro x hx
    exact hperm.mem_iff.1 (List.mem_of_mem_take ((hmem x).1 hx))
  · rw [hlen]; exact Nat.min_le_left _ _
  · intro hlt y hy
    rw [hlen] at hlt
    rw [hmem, List.take_of_length_le (by omega)]
    exact hperm.mem_iff.2 hy
  · intro x hx y hy hny
    rw [hmem] at hx hny
    have hy := hperm.mem_iff.2 hy
    rw [← List.take_append_drop n.toNat t] at hsort hy
    rcases List.mem_append.1 hy with h' | h'
    · exact absurd h' hny
    · exact (List.pairwise_append.1 hsort).2.2 x hx y h'

/-! ### Texts -/

theorem filter_join (f : Char → Bool) (sep : Str) : ∀ l : List Str, (join sep l).filter f = join (sep.filter f) (l.map (fun s => s.filter f))
  | [] => rfl
  | [_] => rfl
  | x :: y :: r => by
    show (x ++ sep ++ join sep (y :: r)).filter f = x.filter f ++ sep.filter f ++ join (sep.filter f) ((y :: r).map _)
    rw [List.filter_append, List.filter_append, filter_join f sep (y :: r)]

theorem strInt_noSpace (n : Nat) : (strInt n).filter (fun ch => ch ≠ ' ') = strInt n := by
  rw [List.filter_eq_self]
  intro c hc
  have : strInt (n : Int) = Nat.toDigits 10 n := by
    unfold strInt; rw [if_neg (by omega)]; rfl
  rw [this] at hc
  have hd := toDigits_isDigit hc
  have : c ≠ ' ' := by rintro rfl; exact absurd hd (by decide)
  simpa using this

theorem tuple_text (c : List Nat) : (tupleStr c).filter (fun ch => ch ≠ ' ') = coordText c := by
  have hmap : ∀ l : List Nat, (l.map (fun (x : Nat) => strInt x)).map (fun s => s.filter (fun ch => ch ≠ ' ')) = l.map (fun (x : Nat) => strInt x) := by
    intro l
    rw [List.map_map]
    exact List.map_congr_left (fun x _ => strInt_noSpace x)
  have hgen : ∀ l : List Nat, l.length ≠ 1 →
      ('(' :: join ", ".toList (l.map (fun (x : Nat) => strInt x)) ++ ")".toList).filter (fun ch => ch ≠ ' ') = coordText l := by
    intro l hl
    unfold coordText
    rw [if_neg hl, List.filter_append, List.filter_cons, if_pos (by decide), filter_join, hmap, List.append_nil]
    rfl
  unfold tupleStr
  split
  · rename_i x
    rw [List.filter_append, List.filter_cons, if_pos (by decide), strInt_noSpace]
    unfold coordText
    rw [if_pos (show [x].length = 1 from rfl)]
    show _ = "(".toList ++ strInt x ++ ",".toList ++ ")".toList
    rw [List.append_assoc]
    rfl
  · rename_i h
    refine hgen c ?_
    intro hl
    obtain ⟨x, rfl⟩ := List.length_eq_one_iff.1 hl
    exact h x rfl

variable {ε : Type}

theorem choice_ok {splits : List Nat} (h : ∀ s ∈ splits, 0 < s) {i : Nat} (hi : i < product splits) :
    ∃ co, IsCoord splits co ∧ childIndex splits co = i ∧ describeChoice (ε := ε) splits i = .ok (coordText co) := by
  have hg : (cubeCoordinates splits)[i]? = some (coordinates splits i) := by rw [cube_get, if_pos hi]
  obtain ⟨h1, h2⟩ := C42_coordinates h hg
  refine ⟨_, h1, h2, ?_⟩
  unfold describeChoice
  rw [hg, ← tuple_text]

theorem choices_ok {splits : List Nat} (h : ∀ s ∈ splits, 0 < s) : ∀ {p : List Nat}, (∀ i ∈ p, i < product splits) →
    ∃ coords, CoordsOf splits p coords ∧ describeChoices (ε := ε) splits p = .ok (coords.map coordText)
  | [], _ => ⟨[], .nil, rfl⟩
  | i :: p, hp => by
    obtain ⟨co, h1, h2, h3⟩ := choice_ok (ε := ε) h (hp i List.mem_cons_self)
    obtain ⟨coords, h4, h5⟩ := choices_ok h (fun i hi => hp i (List.mem_cons_of_mem _ hi))
    refine ⟨co :: coords, .cons ⟨h1, h2⟩ h4, ?_⟩
    unfold describeChoices
    rw [h3, h5]; rfl

theorem formatPath_spec {splits : List Nat} (h : ∀ s ∈ splits, 0 < s) (S : Show ε) {p : List Nat} (hp : ∀ i ∈ p, i < product splits) :
    ∃ ps, CentreOf splits p ps ∧ ((∃ s, S.params ps = .ok s ∧ formatPath S splits p = .ok s) ∨ (∃ e, S.params ps = .error e ∧ formatPath S splits p = .error (.fmt e))) := by
  obtain ⟨ps, h1, h2⟩ := C42_centre h hp
  refine ⟨ps, h2, ?_⟩
  unfold formatPath
  rw [h1]
  cases hs : S.params ps with
  | ok s => exact .inl ⟨s, rfl, by simp only [hs]⟩
  | error e => exact .inr ⟨e, rfl, by simp only [hs]⟩

/-- Each line is made, or there's the first failure. -/
theorem eachLine_spec {f : α → Except (RErr ε) Str} {P : α → Str → Prop} {E : RErr ε → Prop} : ∀ {l : List α},
    (∀ x ∈ l, (∀ s, f x = .ok s → P x s) ∧ (∀ e, f x = .error e → E e)) →
    (∀ r, eachLine f l = .ok r → List.Forall₂ P l r) ∧ (∀ e, eachLine f l = .error e → E e)
  | [], _ => ⟨fun r h => by injection h with h; rw [← h]; exact .nil, fun e h => by cases h⟩
  | x :: l, hx => by
    have h1 := hx x List.mem_cons_self
    obtain ⟨i1, i2⟩ := eachLine_spec (l := l) (fun y hy => hx y (List.mem_cons_of_mem _ hy))
    unfold eachLine
    cases hf : f x with
    | error e => exact ⟨fun r h => (by cases h), fun e' h => by injection h with h; rw [← h]; exact h1.2 e hf⟩
    | ok s =>
      cases hl : eachLine f l with
      | error e => exact ⟨fun r h => (by simp only at h; cases h), fun e' h => by simp only at h; injection h with h; rw [← h]; exact i2 e hl⟩
      | ok r =>
        refine ⟨fun r' h => ?_, fun e h => (by simp only at h; cases h)⟩
        simp only at h
        injection h with h
        rw [← h]
        exact .cons (h1.1 s hf) (i1 r hl)

end Gomill.Mcts
