import Verif.Spec.SgfEdit
import Verif.Lemmas.SgfTree
/-
Edits keep the Tree_nodes forming trees.
-/
namespace Gomill.Sgf

open Py

variable {α : Type}

theorem children_of_get {h : Heap α} {i : Nat} {r : NodeRec α} (e : h[i]? = some r) : h.children i = r.children := by
  unfold Heap.children; rw [e]
theorem parent_of_get {h : Heap α} {i : Nat} {r : NodeRec α} (e : h[i]? = some r) : h.parent i = r.parent := by
  unfold Heap.parent; rw [e]
theorem owner_of_get {h : Heap α} {i : Nat} {r : NodeRec α} (e : h[i]? = some r) : h.owner i = r.owner := by
  unfold Heap.owner; rw [e]

theorem parent_some_lt {h : Heap α} {i p : Nat} (e : h.parent i = some p) : i < h.length := by
  unfold Heap.parent at e
  cases hr : h[i]? with
  | none => rw [hr] at e; simp at e
  | some r => exact (List.getElem?_eq_some_iff.1 hr).1

theorem children_lt {h : Heap α} {i c : Nat} (e : c ∈ h.children i) : i < h.length := by
  unfold Heap.children at e
  cases hr : h[i]? with
  | none => rw [hr] at e; simp at e
  | some r => exact (List.getElem?_eq_some_iff.1 hr).1

/-! ### Paths -/

theorem PathUp.unique {h : Heap α} {i : Nat} {l m : List Nat} (h1 : PathUp h i l) (h2 : PathUp h i m) : l = m := by
  induction h1 generalizing m with
  | root e hp =>
    cases h2 with
    | root e' hp' => rfl
    | up e' hp' _ => rw [e] at e'; cases e'; rw [hp] at hp'; simp at hp'
  | up e hp _ ih =>
    cases h2 with
    | root e' hp' => rw [e] at e'; cases e'; rw [hp] at hp'; simp at hp'
    | up e' hp' h' =>
      rw [e] at e'; cases e'; rw [hp] at hp'; cases hp'
      rw [ih h']

theorem PathUp.head {h : Heap α} {i : Nat} {l : List Nat} (h1 : PathUp h i l) : ∃ m, l = i :: m := by
  cases h1 <;> exact ⟨_, rfl⟩

theorem PathUp.suffix {h : Heap α} {i j : Nat} {l : List Nat} (h1 : PathUp h i l) (hj : j ∈ l) :
    ∃ a m, l = a ++ m ∧ PathUp h j m := by
  induction h1 with
  | @root i r e hp =>
    simp only [List.mem_cons, List.not_mem_nil, or_false] at hj
    subst hj
    exact ⟨[], _, rfl, .root e hp⟩
  | @up i p r l e hp h' ih =>
    rcases List.mem_cons.1 hj with rfl | hj
    · exact ⟨[], _, rfl, .up e hp h'⟩
    · obtain ⟨a, m, rfl, hm⟩ := ih hj
      exact ⟨i :: a, m, rfl, hm⟩

theorem PathUp.nodup {h : Heap α} {i : Nat} {l : List Nat} (h1 : PathUp h i l) : l.Nodup := by
  induction h1 with
  | root _ _ => simp
  | @up i p r l e hp h' ih =>
    refine List.nodup_cons.2 ⟨fun hm => ?_, ih⟩
    obtain ⟨a, m, hl, hm'⟩ := h'.suffix hm
    have := (PathUp.up e hp h').unique hm'
    rw [hl] at this
    have := congrArg List.length this
    simp at this
    omega

theorem PathUp.lt {h : Heap α} {i : Nat} {l : List Nat} (h1 : PathUp h i l) : ∀ j ∈ l, j < h.length := by
  induction h1 with
  | root e _ =>
    intro j hj
    simp only [List.mem_cons, List.not_mem_nil, or_false] at hj
    subst hj
    exact (List.getElem?_eq_some_iff.1 e).1
  | up e _ _ ih =>
    intro j hj
    rcases List.mem_cons.1 hj with rfl | hj
    · exact (List.getElem?_eq_some_iff.1 e).1
    · exact ih j hj

theorem PathUp.length_le {h : Heap α} {i : Nat} {l : List Nat} (h1 : PathUp h i l) : l.length ≤ h.length :=
  nodup_length_le h1.nodup h1.lt

theorem PathUp.ancestor {h : Heap α} {i : Nat} {l : List Nat} (h1 : PathUp h i l) (a : Nat) : a ∈ l ↔ AncestorOrSelf h a i := by
  induction h1 with
  | @root i r e hp =>
    simp only [List.mem_cons, List.not_mem_nil, or_false]
    constructor
    · rintro rfl; exact .refl _
    · intro h
      cases h with
      | refl => rfl
      | up hp' _ => rw [parent_of_get e, hp] at hp'; simp at hp'
  | @up i p r l e hp _ ih =>
    rw [List.mem_cons, ih]
    constructor
    · rintro (rfl | h)
      · exact .refl _
      · exact .up (by rw [parent_of_get e, hp]) h
    · intro h
      cases h with
      | refl => exact Or.inl rfl
      | up hp' h => rw [parent_of_get e, hp] at hp'; cases hp'; exact Or.inr h

/-- A path is unchanged if the parents of its nodes are. -/
theorem PathUp.congr {h h' : Heap α} {i : Nat} {l : List Nat} (h1 : PathUp h i l)
    (hf : ∀ j ∈ l, j < h'.length ∧ h'.parent j = h.parent j) : PathUp h' i l := by
  induction h1 with
  | @root i r e hp =>
    obtain ⟨g1, g2⟩ := hf i (by simp)
    have e' : h'[i]? = some h'[i] := List.getElem?_eq_getElem g1
    exact .root e' (by rw [← parent_of_get e', g2, parent_of_get e, hp])
  | @up i p r l e hp _ ih =>
    obtain ⟨g1, g2⟩ := hf i (by simp)
    have e' : h'[i]? = some h'[i] := List.getElem?_eq_getElem g1
    exact .up e' (by rw [← parent_of_get e', g2, parent_of_get e, hp]) (ih (fun j hj => hf j (List.mem_cons_of_mem _ hj)))

theorem climbFinds_iff {h : Heap α} {node n : Nat} {l : List Nat} (h1 : PathUp h n l) {fuel : Nat} (hf : l.length ≤ fuel) :
    climbFinds h node fuel n = true ↔ node ∈ l := by
  induction h1 generalizing fuel with
  | @root i r e hp =>
    cases fuel with
    | zero => simp at hf
    | succ fuel =>
      rw [climbFinds, parent_of_get e, hp]
      by_cases hi : i = node
      · simp [hi]
      · simp [hi, Ne.symm hi]
  | @up i p r l e hp _ ih =>
    cases fuel with
    | zero => simp at hf
    | succ fuel =>
      rw [climbFinds, parent_of_get e, hp]
      by_cases hi : i = node
      · simp [hi]
      · simp only [if_neg hi, List.mem_cons]
        rw [ih (by simpa using hf)]
        constructor
        · exact Or.inr
        · rintro (h | h)
          · exact absurd h.symm hi
          · exact h

/-! ### Field-wise effect of the updates -/

theorem getElem?_of_lt {h : Heap α} {i : Nat} (hi : i < h.length) : ∃ r, h[i]? = some r := ⟨_, List.getElem?_eq_getElem hi⟩

theorem children_ge {h : Heap α} {i : Nat} (hi : h.length ≤ i) : h.children i = [] := by
  unfold Heap.children; rw [List.getElem?_eq_none hi]
theorem parent_ge {h : Heap α} {i : Nat} (hi : h.length ≤ i) : h.parent i = none := by
  unfold Heap.parent; rw [List.getElem?_eq_none hi]

theorem sc_children {h : Heap α} {i : Nat} {f : List Nat → List Nat} (j : Nat) :
    (h.setChildren i f).children j = if i = j ∧ j < h.length then f (h.children j) else h.children j := by
  by_cases hj : j < h.length
  · obtain ⟨r, hr⟩ := getElem?_of_lt hj
    have : (h.setChildren i f)[j]? = some (if i = j then { r with children := f r.children } else r) := by
      rw [setChildren_get, hr]; rfl
    rw [children_of_get this, children_of_get hr]
    by_cases hij : i = j <;> simp [hij, hj]
  · rw [children_ge (h := h.setChildren i f) (by rw [setChildren_length]; omega), if_neg (by omega), children_ge (by omega)]

theorem sc_parent {h : Heap α} {i : Nat} {f : List Nat → List Nat} (j : Nat) : (h.setChildren i f).parent j = h.parent j := by
  unfold Heap.parent
  rw [setChildren_get]
  cases h[j]? <;> simp
  split <;> rfl

theorem sc_owner {h : Heap α} {i : Nat} {f : List Nat → List Nat} (j : Nat) : (h.setChildren i f).owner j = h.owner j := by
  unfold Heap.owner
  rw [setChildren_get]
  cases h[j]? <;> simp
  split <;> rfl

theorem sp_children {h : Heap α} {i : Nat} {p : Option Nat} (j : Nat) : (h.setParent i p).children j = h.children j := by
  unfold Heap.children
  rw [setParent_get]
  cases h[j]? <;> simp
  split <;> rfl

theorem sp_owner {h : Heap α} {i : Nat} {p : Option Nat} (j : Nat) : (h.setParent i p).owner j = h.owner j := by
  unfold Heap.owner
  rw [setParent_get]
  cases h[j]? <;> simp
  split <;> rfl

theorem sp_parent {h : Heap α} {i : Nat} {p : Option Nat} (j : Nat) :
    (h.setParent i p).parent j = if i = j ∧ j < h.length then p else h.parent j := by
  by_cases hj : j < h.length
  · obtain ⟨r, hr⟩ := getElem?_of_lt hj
    have : (h.setParent i p)[j]? = some (if i = j then { r with parent := p } else r) := by
      rw [setParent_get, hr]; rfl
    rw [parent_of_get this, parent_of_get hr]
    by_cases hij : i = j <;> simp [hij, hj]
  · rw [parent_ge (h := h.setParent i p) (by rw [setParent_length]; omega), if_neg (by omega), parent_ge (by omega)]

theorem app_fields {h : Heap α} {r : NodeRec α} (j : Nat) :
    (h ++ [r]).children j = (if j = h.length then r.children else h.children j) ∧
    (h ++ [r]).parent j = (if j = h.length then r.parent else h.parent j) ∧
    (h ++ [r]).owner j = (if j = h.length then r.owner else h.owner j) := by
  unfold Heap.children Heap.parent Heap.owner
  by_cases hj : j = h.length
  · subst hj; simp
  · rw [if_neg hj, if_neg hj, if_neg hj]
    by_cases hl : j < h.length
    · rw [List.getElem?_append_left hl]; exact ⟨rfl, rfl, rfl⟩
    · rw [List.getElem?_eq_none (by simp; omega), List.getElem?_eq_none (by omega)]; exact ⟨rfl, rfl, rfl⟩

/-! ### Invariant -/

theorem mem_placeChild {index : Option Int} {x c : Nat} {cs : List Nat} : c ∈ placeChild index x cs ↔ c = x ∨ c ∈ cs := by
  unfold placeChild
  cases index with
  | none => simp [or_comm]
  | some i =>
    simp only [listInsert]
    generalize (if i < 0 then (i + cs.length).toNat else i.toNat) = k
    rw [List.mem_append, List.mem_cons]
    have e : c ∈ cs ↔ c ∈ cs.take k ∨ c ∈ cs.drop k := by rw [← List.mem_append, List.take_append_drop]
    rw [e]
    constructor
    · rintro (h | h | h)
      · exact Or.inr (Or.inl h)
      · exact Or.inl h
      · exact Or.inr (Or.inr h)
    · rintro (h | h | h)
      · exact Or.inr (Or.inl h)
      · exact Or.inl h
      · exact Or.inr (Or.inr h)

theorem nodup_placeChild {index : Option Int} {x : Nat} {cs : List Nat} (h1 : cs.Nodup) (h2 : x ∉ cs) : (placeChild index x cs).Nodup := by
  unfold placeChild
  cases index with
  | none => simp only; rw [List.nodup_append]; refine ⟨h1, by simp, ?_⟩; rintro a ha b hb rfl; simp at hb; exact h2 (hb ▸ ha)
  | some i =>
    simp only [listInsert]
    generalize (if i < 0 then (i + cs.length).toNat else i.toNat) = k
    have hp : (cs.take k ++ x :: cs.drop k).Perm (x :: cs) := by
      refine List.perm_middle.trans ?_
      rw [List.take_append_drop]
    exact hp.nodup_iff.2 (List.nodup_cons.2 ⟨h2, h1⟩)

theorem isForest_nil : IsForest ([] : Heap α) := by
  constructor
  · intro i c hc; simp [Heap.children] at hc
  · intro i; simp [Heap.children]
  · intro i p hp; simp [Heap.parent] at hp
  · intro i hi; simp at hi
  · intro i j hi; simp at hi

theorem isForest_newRoot {h : Heap α} (hf : IsForest h) {o : Nat} (ho : ∀ i, i < h.length → h.owner i ≠ o) (p : α) : IsForest (h.newRoot o p) := by
  unfold Heap.newRoot
  constructor
  · intro i c hc
    rw [(app_fields i).1] at hc
    split at hc
    · simp at hc
    · have := hf.child i c hc
      rw [(app_fields c).2.1, if_neg (by omega)]
      exact ⟨by simp; omega, this.2⟩
  · intro i
    rw [(app_fields i).1]
    split
    · simp
    · exact hf.nodup i
  · intro i q hq
    rw [(app_fields i).2.1] at hq
    split at hq
    · simp at hq
    · have := hf.parent i q hq
      rw [(app_fields q).2.2, (app_fields i).2.2, if_neg (by omega), if_neg (by assumption)]
      exact ⟨by simp; omega, this.2⟩
  · intro i hi
    by_cases hl : i = h.length
    · subst hl
      exact ⟨_, .root (r := ⟨o, none, [], p⟩) (by simp) rfl⟩
    · obtain ⟨l, hp⟩ := hf.rooted i (by simp at hi; omega)
      refine ⟨l, hp.congr ?_⟩
      intro j hj
      have := hp.lt j hj
      rw [(app_fields j).2.1, if_neg (by omega)]
      exact ⟨by simp; omega, rfl⟩
  · intro i j hi hj hpi hpj ho'
    rw [(app_fields i).2.1] at hpi
    rw [(app_fields j).2.1] at hpj
    rw [(app_fields i).2.2, (app_fields j).2.2] at ho'
    simp only [List.length_append, List.length_cons, List.length_nil] at hi hj
    by_cases h1 : i = h.length <;> by_cases h2 : j = h.length
    · omega
    · rw [if_pos h1, if_neg h2] at ho'; exact absurd ho'.symm (ho j (by omega))
    · rw [if_neg h1, if_pos h2] at ho'; exact absurd ho' (ho i (by omega))
    · rw [if_neg h1] at hpi; rw [if_neg h2] at hpj; rw [if_neg h1, if_neg h2] at ho'
      exact hf.oneRoot i j (by omega) (by omega) hpi hpj ho'

/-- Adding a new node and listing it once with its parent. -/
theorem isForest_newChild {h : Heap α} (hf : IsForest h) {n : Nat} (hn : n < h.length) (p : α) (index : Option Int) :
    IsForest (h.newChild n p index) := by
  have hne : ∀ i, h.length ∉ h.children i := fun i hm => by have := (hf.child i _ hm).1; omega
  have hch : ∀ i, (h.newChild n p index).children i = if i = h.length then [] else if n = i then placeChild index h.length (h.children i) else h.children i := by
    intro i
    unfold Heap.newChild Heap.newNode
    rw [sc_children, (app_fields i).1]
    simp only [List.length_append, List.length_cons, List.length_nil]
    by_cases h1 : i = h.length
    · subst h1; simp; omega
    · by_cases h2 : n = i
      · subst h2; simp [h1]; omega
      · simp [h1, h2]
  have hpar : ∀ i, (h.newChild n p index).parent i = if i = h.length then some n else h.parent i := by
    intro i
    unfold Heap.newChild Heap.newNode
    rw [sc_parent, (app_fields i).2.1]
  have hown : ∀ i, (h.newChild n p index).owner i = if i = h.length then h.owner n else h.owner i := by
    intro i
    unfold Heap.newChild Heap.newNode
    rw [sc_owner, (app_fields i).2.2]
  have hlen : (h.newChild n p index).length = h.length + 1 := by
    unfold Heap.newChild Heap.newNode
    rw [setChildren_length]; simp
  have oldPath : ∀ i l, PathUp h i l → PathUp (h.newChild n p index) i l := by
    intro i l hp
    refine hp.congr ?_
    intro j hj
    have := hp.lt j hj
    rw [hlen, hpar, if_neg (by omega)]
    exact ⟨by omega, rfl⟩
  constructor
  · intro i c hc
    rw [hch] at hc
    rw [hlen, hpar]
    split at hc
    · simp at hc
    · split at hc
      · rename_i h2
        rcases mem_placeChild.1 hc with rfl | hc
        · rw [if_pos rfl, h2]; exact ⟨by omega, rfl⟩
        · have := hf.child i c hc
          rw [if_neg (by omega)]; exact ⟨by omega, this.2⟩
      · have := hf.child i c hc
        rw [if_neg (by omega)]; exact ⟨by omega, this.2⟩
  · intro i
    rw [hch]
    split
    · simp
    · split
      · exact nodup_placeChild (hf.nodup i) (hne i)
      · exact hf.nodup i
  · intro i q hq
    rw [hpar] at hq
    rw [hlen, hown, hown]
    split at hq
    · cases hq
      rename_i h1
      rw [if_neg (by omega), if_pos h1]
      exact ⟨by omega, rfl⟩
    · have := hf.parent i q hq
      rw [if_neg (by omega), if_neg (by assumption)]
      exact ⟨by omega, this.2⟩
  · intro i hi
    rw [hlen] at hi
    by_cases h1 : i = h.length
    · subst h1
      obtain ⟨l, hl⟩ := hf.rooted n hn
      obtain ⟨r, hr⟩ := getElem?_of_lt (h := h.newChild n p index) (i := h.length) (by omega)
      exact ⟨_, .up hr (by rw [← parent_of_get hr, hpar, if_pos rfl]) (oldPath _ _ hl)⟩
    · obtain ⟨l, hl⟩ := hf.rooted i (by omega)
      exact ⟨l, oldPath _ _ hl⟩
  · intro i j hi hj hpi hpj ho'
    rw [hpar] at hpi hpj
    rw [hown, hown] at ho'
    split at hpi
    · simp at hpi
    · split at hpj
      · simp at hpj
      · rw [if_neg (by assumption), if_neg (by assumption)] at ho'
        exact hf.oneRoot i j (by omega) (by omega) hpi hpj ho'

/-- Shrinking lists of children is harmless. -/
theorem isForest_shrink {h : Heap α} (hf : IsForest h) {n : Nat} {f : List Nat → List Nat} (hs : ∀ l, (f l).Sublist l) :
    IsForest (h.setChildren n f) := by
  have hsub : ∀ i, ((h.setChildren n f).children i).Sublist (h.children i) := by
    intro i
    rw [sc_children]
    split
    · exact hs _
    · exact List.Sublist.refl _
  constructor
  · intro i c hc
    rw [setChildren_length, sc_parent]
    exact hf.child i c ((hsub i).subset hc)
  · intro i; exact (hf.nodup i).sublist (hsub i)
  · intro i p hp
    rw [sc_parent] at hp
    rw [setChildren_length, sc_owner, sc_owner]
    exact hf.parent i p hp
  · intro i hi
    rw [setChildren_length] at hi
    obtain ⟨l, hl⟩ := hf.rooted i hi
    refine ⟨l, hl.congr ?_⟩
    intro j hj
    rw [setChildren_length, sc_parent]
    exact ⟨hl.lt j hj, rfl⟩
  · intro i j hi hj h1 h2 h3
    rw [setChildren_length] at hi hj
    rw [sc_parent] at h1 h2
    rw [sc_owner, sc_owner] at h3
    exact hf.oneRoot i j hi hj h1 h2 h3

theorem isForest_delete {h h' : Heap α} (hf : IsForest h) {n : Nat} (hd : h.delete n = .ok h') : IsForest h' := by
  unfold Heap.delete at hd
  split at hd
  · simp at hd
  · split at hd
    · cases hd
      exact isForest_shrink hf (fun l => List.erase_sublist)
    · simp at hd

theorem isForest_reparent {h h' : Heap α} (hf : IsForest h) {n np : Nat} {index : Option Int} (hn : n < h.length)
    (hnp : np < h.length) (hd : h.reparent n np index = .ok h') : IsForest h' := by
  unfold Heap.reparent at hd
  split at hd
  · simp at hd
  rename_i hown
  simp only [ne_eq, Decidable.not_not] at hown
  split at hd
  · simp at hd
  rename_i hclimb
  split at hd
  · simp at hd
  rename_i p hp
  split at hd
  case isFalse => simp at hd
  rename_i hmem
  cases hd
  obtain ⟨lp, hlp⟩ := hf.rooted np hnp
  rw [climbFinds_iff hlp hlp.length_le] at hclimb
  -- shape of the result
  have hch : ∀ i, (((h.setChildren p (fun cs => cs.erase n)).setParent n (some np)).setChildren np (placeChild index n)).children i =
      if np = i then placeChild index n ((h.children i).erase n) else (h.children i).erase n := by
    intro i
    rw [sc_children, setParent_length, setChildren_length, sp_children, sc_children]
    have key : (if p = i ∧ i < h.length then (h.children i).erase n else h.children i) = (h.children i).erase n := by
      split
      · rfl
      · rename_i hpi
        rw [List.erase_of_not_mem]
        intro hm
        have := (hf.child i n hm).2
        rw [hp] at this
        cases this
        exact hpi ⟨rfl, children_lt hm⟩
    rw [key]
    by_cases h1 : np = i
    · subst h1; simp [hnp]
    · simp [h1]
  have hpar : ∀ i, (((h.setChildren p (fun cs => cs.erase n)).setParent n (some np)).setChildren np (placeChild index n)).parent i =
      if n = i then some np else h.parent i := by
    intro i
    rw [sc_parent, sp_parent, setChildren_length, sc_parent]
    by_cases h1 : n = i
    · subst h1; simp [hn]
    · simp [h1]
  have hown' : ∀ i, (((h.setChildren p (fun cs => cs.erase n)).setParent n (some np)).setChildren np (placeChild index n)).owner i = h.owner i := by
    intro i
    rw [sc_owner, sp_owner, sc_owner]
  have hlen : (((h.setChildren p (fun cs => cs.erase n)).setParent n (some np)).setChildren np (placeChild index n)).length = h.length := by
    rw [setChildren_length, setParent_length, setChildren_length]
  generalize ((h.setChildren p (fun cs => cs.erase n)).setParent n (some np)).setChildren np (placeChild index n) = h' at hch hpar hown' hlen
  have hpath : ∀ i l, PathUp h i l → n ∉ l → PathUp h' i l := by
    intro i l hl hnl
    refine hl.congr ?_
    intro j hj
    rw [hlen, hpar, if_neg (by rintro rfl; exact hnl hj)]
    exact ⟨hl.lt j hj, rfl⟩
  constructor
  · intro i c hc
    rw [hch] at hc
    rw [hlen, hpar]
    have old : c ∈ (h.children i).erase n → c < h.length ∧ (if n = c then some np else h.parent c) = some i := by
      intro hm
      have h1 := (hf.nodup i).mem_erase_iff.1 hm
      have h2 := hf.child i c h1.2
      rw [if_neg (fun e => h1.1 e.symm)]
      exact h2
    split at hc
    · rename_i h1
      rcases mem_placeChild.1 hc with rfl | hc
      · rw [if_pos rfl, h1]; exact ⟨hn, rfl⟩
      · exact old hc
    · exact old hc
  · intro i
    rw [hch]
    have hnd := (hf.nodup i).erase n
    split
    · exact nodup_placeChild hnd (fun hm => ((hf.nodup i).mem_erase_iff.1 hm).1 rfl)
    · exact hnd
  · intro i q hq
    rw [hpar] at hq
    rw [hlen, hown', hown']
    split at hq
    · rename_i h1
      cases hq
      subst h1
      exact ⟨hnp, hown⟩
    · exact hf.parent i q hq
  · intro i hi
    rw [hlen] at hi
    obtain ⟨l, hl⟩ := hf.rooted i hi
    induction hl with
    | @root i r e hpn =>
      obtain ⟨r', hr'⟩ := getElem?_of_lt (h := h') (i := i) (by rw [hlen]; exact (List.getElem?_eq_some_iff.1 e).1)
      by_cases h1 : n = i
      · subst h1
        exact ⟨_, .up hr' (by rw [← parent_of_get hr', hpar, if_pos rfl]) (hpath _ _ hlp hclimb)⟩
      · exact ⟨_, .root hr' (by rw [← parent_of_get hr', hpar, if_neg h1, parent_of_get e, hpn])⟩
    | @up i q r l e hq hql ih =>
      obtain ⟨r', hr'⟩ := getElem?_of_lt (h := h') (i := i) (by rw [hlen]; exact (List.getElem?_eq_some_iff.1 e).1)
      by_cases h1 : n = i
      · subst h1
        exact ⟨_, .up hr' (by rw [← parent_of_get hr', hpar, if_pos rfl]) (hpath _ _ hlp hclimb)⟩
      · obtain ⟨l', hl'⟩ := ih (hql.lt q (by obtain ⟨m, rfl⟩ := hql.head; simp))
        exact ⟨_, .up hr' (by rw [← parent_of_get hr', hpar, if_neg h1, parent_of_get e, hq]) hl'⟩
  · intro i j hi hj h1 h2 h3
    rw [hlen] at hi hj
    rw [hpar] at h1 h2
    rw [hown', hown'] at h3
    split at h1
    · simp at h1
    · split at h2
      · simp at h2
      · exact hf.oneRoot i j hi hj h1 h2 h3

theorem isForest_setProps {h : Heap α} (hf : IsForest h) (n : Nat) (p : α) : IsForest (h.modify n (fun r => { r with props := p })) := by
  have hget : ∀ i, (h.modify n (fun r => { r with props := p }))[i]? = (h[i]?).map (fun r => if n = i then { r with props := p } else r) := by
    intro i
    rw [List.getElem?_modify]
    cases h[i]? <;> simp
  have hlen : (h.modify n (fun r => { r with props := p })).length = h.length := by simp
  have hch : ∀ i, Heap.children (h.modify n (fun r => { r with props := p })) i = h.children i := by
    intro i; unfold Heap.children; rw [hget]; cases h[i]? <;> simp
    split <;> rfl
  have hpa : ∀ i, Heap.parent (h.modify n (fun r => { r with props := p })) i = h.parent i := by
    intro i; unfold Heap.parent; rw [hget]; cases h[i]? <;> simp
    split <;> rfl
  have how : ∀ i, Heap.owner (h.modify n (fun r => { r with props := p })) i = h.owner i := by
    intro i; unfold Heap.owner; rw [hget]; cases h[i]? <;> simp
    split <;> rfl
  constructor
  · intro i c hc; rw [hch] at hc; rw [hlen, hpa]; exact hf.child i c hc
  · intro i; rw [hch]; exact hf.nodup i
  · intro i q hq; rw [hpa] at hq; rw [hlen, how, how]; exact hf.parent i q hq
  · intro i hi
    rw [hlen] at hi
    obtain ⟨l, hl⟩ := hf.rooted i hi
    exact ⟨l, hl.congr (fun j hj => ⟨by rw [hlen]; exact hl.lt j hj, hpa j⟩)⟩
  · intro i j hi hj h1 h2 h3
    rw [hlen] at hi hj
    rw [hpa] at h1 h2
    rw [how, how] at h3
    exact hf.oneRoot i j hi hj h1 h2 h3

theorem grow_eq_newChild (h : Heap α) (n : Nat) (p : α) : (h.newNode n p).addChild n h.length = h.newChild n p none := rfl

theorem newChild_length (h : Heap α) (n : Nat) (p : α) (index : Option Int) : (h.newChild n p index).length = h.length + 1 := by
  unfold Heap.newChild Heap.newNode
  rw [setChildren_length]; simp

theorem isForest_addChildTrees (node : Nat) : ∀ (cs : List (Coarse α)) (h : Heap α) (st : List (Nat × Coarse α × Nat)) (h' : Heap α)
    (st' : List (Nat × Coarse α × Nat)), IsForest h → node < h.length → (∀ x ∈ st, x.1 < h.length) →
    addChildTrees node cs h st = .ok (h', st') → IsForest h' ∧ h.length ≤ h'.length ∧ ∀ x ∈ st', x.1 < h'.length := by
  intro cs
  induction cs with
  | nil =>
    intro h st h' st' hf hn hst he
    rw [addChildTrees] at he
    cases he
    exact ⟨hf, Nat.le_refl _, hst⟩
  | cons c cs ih =>
    intro h st h' st' hf hn hst he
    obtain ⟨s, ccs⟩ := c
    cases s with
    | nil => rw [addChildTrees] at he; simp at he
    | cons p s =>
      rw [addChildTrees, grow_eq_newChild] at he
      have hl := newChild_length h node p none
      have := ih _ _ _ _ (isForest_newChild hf hn p none) (by omega) (by
        intro x hx
        rcases List.mem_cons.1 hx with rfl | hx
        · simp only; omega
        · have := hst x hx; omega) he
      exact ⟨this.1, by omega, this.2.2⟩

theorem isForest_makeTreeLoop : ∀ (fuel : Nat) (h : Heap α) (st : List (Nat × Coarse α × Nat)) (h' : Heap α), IsForest h →
    (∀ x ∈ st, x.1 < h.length) → makeTreeLoop fuel h st = .ok h' → IsForest h' := by
  intro fuel
  induction fuel with
  | zero =>
    intro h st h' hf _ he
    cases st <;> (rw [makeTreeLoop] at he; cases he; exact hf)
    all_goals simp
  | succ fuel ih =>
    intro h st h' hf hst he
    cases st with
    | nil => rw [makeTreeLoop] at he; cases he; exact hf
    | cons x st =>
      obtain ⟨node, ⟨seq, cs⟩, index⟩ := x
      have hn := hst _ (List.mem_cons_self ..)
      simp only at hn
      rw [makeTreeLoop] at he
      split at he
      · split at he
        · simp at he
        · rename_i p _
          rw [grow_eq_newChild] at he
          have hl := newChild_length h node p none
          refine ih _ _ _ (isForest_newChild hf hn p none) ?_ he
          intro x hx
          rcases List.mem_cons.1 hx with rfl | hx
          · simp only; omega
          · have := hst x (List.mem_cons_of_mem _ hx); omega
      · split at he
        · simp at he
        · rename_i h2 st2 he2
          have := isForest_addChildTrees node cs _ st h2 st2 (isForest_shrink hf (fun l => List.nil_sublist l))
            (by rw [setChildren_length]; exact hn) (by
              intro x hx
              rw [setChildren_length]; exact hst x (List.mem_cons_of_mem _ hx)) he2
          exact ih _ _ _ this.1 this.2.2 he

theorem isForest_edited {h : Heap α} (he : Edited h) : IsForest h := by
  induction he with
  | start => exact isForest_nil
  | @step h h' e _ hp ha ih =>
    cases e with
    | newGame o p => cases ha; exact isForest_newRoot ih hp p
    | load o p c =>
      refine isForest_makeTreeLoop _ _ _ _ (isForest_newRoot ih hp p) ?_ ha
      intro x hx
      simp only [List.mem_cons, List.not_mem_nil, or_false] at hx
      subst hx
      unfold Heap.newRoot
      simp
    | newChild n p index => cases ha; exact isForest_newChild ih hp p index
    | delete n => exact isForest_delete ih ha
    | reparent n p index => exact isForest_reparent ih hp.1 hp.2 ha
    | setProps n p => cases ha; exact isForest_setProps ih n p

/-! ### The tree below a node -/

theorem repL_of {h : Heap α} {o i : Nat} {d : Nat} {li : List Nat}
    (hrec : ∀ c, h.parent c = some i → c < h.length → h.owner c = o → ∃ t ids, Rep h o (some i) c t ids ∧ ids.Nodup ∧
      (∀ j ∈ ids, ∃ a, PathUp h j (a ++ c :: li))) :
    ∀ cs : List Nat, cs.Nodup → (∀ c ∈ cs, h.parent c = some i ∧ c < h.length ∧ h.owner c = o) →
    ∃ ts ids, RepL h o (some i) cs ts ids ∧ ids.Nodup ∧ (∀ j ∈ ids, ∃ a, ∃ c ∈ cs, PathUp h j (a ++ c :: li)) := by
  intro cs
  induction cs with
  | nil => intro _ _; exact ⟨[], [], by rw [RepL], List.nodup_nil, by simp⟩
  | cons c cs ih =>
    intro hnd hcs
    rw [List.nodup_cons] at hnd
    obtain ⟨t, a, r1, r2, r3⟩ := hrec c (hcs c (by simp)).1 (hcs c (by simp)).2.1 (hcs c (by simp)).2.2
    obtain ⟨ts, b, s1, s2, s3⟩ := ih hnd.2 (fun c hc => hcs c (List.mem_cons_of_mem _ hc))
    refine ⟨t :: ts, a ++ b, by rw [RepL]; exact ⟨a, b, rfl, r1, s1⟩, ?_, ?_⟩
    · rw [List.nodup_append]
      refine ⟨r2, s2, ?_⟩
      rintro x hx y hy rfl
      obtain ⟨u, hu⟩ := r3 x hx
      obtain ⟨v, c', hc', hv⟩ := s3 x hy
      have e := hu.unique hv
      have : c :: li = c' :: li := (List.append_inj' e (by simp)).2
      have : c = c' := (List.cons.inj this).1
      exact hnd.1 (this ▸ hc')
    · intro j hj
      rcases List.mem_append.1 hj with hj | hj
      · obtain ⟨u, hu⟩ := r3 j hj
        exact ⟨u, c, by simp, hu⟩
      · obtain ⟨u, c', hc', hu⟩ := s3 j hj
        exact ⟨u, c', List.mem_cons_of_mem _ hc', hu⟩

theorem rep_exists {h : Heap α} (hf : IsForest h) : ∀ (n : Nat) (i : Nat) (li : List Nat), PathUp h i li → h.length + 1 - li.length ≤ n →
    ∃ t ids, Rep h (h.owner i) (h.parent i) i t ids ∧ ids.Nodup ∧ (∀ j ∈ ids, ∃ a, PathUp h j (a ++ li)) := by
  intro n
  induction n with
  | zero => intro i li hp hn; have := hp.length_le; omega
  | succ n ih =>
    intro i li hp hn
    obtain ⟨m, hm⟩ := hp.head
    have hi : i < h.length := hp.lt i (by rw [hm]; simp)
    obtain ⟨r, hr⟩ := getElem?_of_lt hi
    obtain ⟨ts, ids, e1, e2, e3⟩ := repL_of (h := h) (o := h.owner i) (i := i) (d := 0) (li := li) (by
      intro c hc hlt ho
      obtain ⟨rc, hrc⟩ := getElem?_of_lt hlt
      have hpc : PathUp h c (c :: li) := .up hrc (by rw [← parent_of_get hrc, hc]) hp
      obtain ⟨t, ids, g1, g2, g3⟩ := ih c (c :: li) hpc (by simp; omega)
      rw [ho, hc] at g1
      exact ⟨t, ids, g1, g2, g3⟩) (h.children i) (hf.nodup i) (by
        intro c hc
        have := hf.child i c hc
        exact ⟨this.2, this.1, (hf.parent c i this.2).2.symm⟩)
    refine ⟨.mk r.props ts, i :: ids, ?_, ?_, ?_⟩
    · rw [Rep]
      refine ⟨r, ids, rfl, hr, rfl, (parent_of_get hr).symm, (owner_of_get hr).symm, ?_⟩
      rw [← children_of_get hr]
      exact e1
    · refine List.nodup_cons.2 ⟨fun hmem => ?_, e2⟩
      obtain ⟨a, c, _, hpa⟩ := e3 i hmem
      have := hp.unique hpa
      have := congrArg List.length this
      simp at this
      omega
    · intro j hj
      rcases List.mem_cons.1 hj with rfl | hj
      · exact ⟨[], hp⟩
      · obtain ⟨a, c, _, hpa⟩ := e3 j hj
        exact ⟨a ++ [c], by simpa using hpa⟩

end Gomill.Sgf
