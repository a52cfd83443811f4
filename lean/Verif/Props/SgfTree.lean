import Verif.Lemmas.SgfEdit
/-
C23-C25: main sequences, conversion between coarse trees and nodes, and edits of node trees.
-/
namespace Gomill.Sgf

open Py

variable {α : Type}

/-! ### C23 -/

/-- C23: iterating over the main sequence of an unexpanded game gives the leftmost variation of its nodes. -/
theorem C23_coarse (c : Coarse α) (hc : c.Nonempty) (t : NTree α) (ht : c.nodes = [t]) : mainSequenceIter c = t.leftmost :=
  mainSequence_leftmost hc ht

theorem firstChildren_leftmost {h : Heap α} {o : Nat} : ∀ (f : Nat) (par : Option Nat) (n : Nat) (t : NTree α) (ids : List Nat),
    Rep h o par n t ids → ids.length ≤ f →
    (n :: firstChildren h f n).map (fun j => (h[j]?).map NodeRec.props) = t.leftmost.map some := by
  intro f
  induction f with
  | zero => intro par n t ids hr hl; have := rep_ids_ne hr; omega
  | succ f ih =>
    intro par n t ids hr hl
    cases t with
    | mk p ts =>
      rw [Rep] at hr
      obtain ⟨r, rest, rfl, h1, h2, h3, h4, h5⟩ := hr
      rw [firstChildren, children_of_get h1]
      cases hc : r.children with
      | nil =>
        rw [hc] at h5
        cases ts with
        | cons _ _ => simp [RepL] at h5
        | nil => simp [NTree.leftmost, h1, h2]
      | cons c cs =>
        rw [hc] at h5
        cases ts with
        | nil => simp [RepL] at h5
        | cons t ts =>
          rw [RepL] at h5
          obtain ⟨a, b, rfl, h6, h7⟩ := h5
          have := ih (some n) c t a h6 (by simp at hl; omega)
          simp only [List.map_cons] at this ⊢
          rw [NTree.leftmost, List.map_cons, this, h1]
          simp [h2]

/-- C23: `get_main_sequence` gives the leftmost variation of the nodes, whatever edits led to them. -/
theorem C23_main_sequence {h : Heap α} {o root : Nat} {par : Option Nat} {t : NTree α} {ids : List Nat}
    (hr : Rep h o par root t ids) (hn : ids.Nodup) :
    (getMainSequence h root).map (fun j => (h[j]?).map NodeRec.props) = t.leftmost.map some :=
  firstChildren_leftmost h.length par root t ids hr (nodup_length_le hn (rep_lt hr))

/-- Each node is the first child of the one before, and the last is a leaf. -/
inductive FirstChildPath (h : Heap α) : List Nat → Prop
  | leaf {i : Nat} : h.children i = [] → FirstChildPath h [i]
  | step {i c : Nat} {l : List Nat} : (h.children i).head? = some c → FirstChildPath h (c :: l) → FirstChildPath h (i :: c :: l)

theorem firstChildren_path {h : Heap α} {o : Nat} : ∀ (f : Nat) (par : Option Nat) (n : Nat) (t : NTree α) (ids : List Nat),
    Rep h o par n t ids → ids.length ≤ f →
    FirstChildPath h (n :: firstChildren h f n) ∧ (n :: firstChildren h f n).getLast? = some (lastNodeLoop h f n) := by
  intro f
  induction f with
  | zero => intro par n t ids hr hl; have := rep_ids_ne hr; omega
  | succ f ih =>
    intro par n t ids hr hl
    cases t with
    | mk p ts =>
      rw [Rep] at hr
      obtain ⟨r, rest, rfl, h1, h2, h3, h4, h5⟩ := hr
      have e := children_of_get h1
      rw [firstChildren, lastNodeLoop, e]
      cases hc : r.children with
      | nil => exact ⟨.leaf (by rw [e, hc]), rfl⟩
      | cons c cs =>
        rw [hc] at h5
        cases ts with
        | nil => simp [RepL] at h5
        | cons t ts =>
          rw [RepL] at h5
          obtain ⟨a, b, rfl, h6, h7⟩ := h5
          obtain ⟨i1, i2⟩ := ih (some n) c t a h6 (by simp at hl; omega)
          refine ⟨.step (by rw [e, hc]; rfl) i1, ?_⟩
          simp only
          rw [List.getLast?_cons_cons]
          exact i2

/-- C23: the nodes of `get_main_sequence`, and `get_last_node`, in any game after any edits: the loops terminate. -/
theorem C23_navigation {h : Heap α} (he : Edited h) (root : Nat) (hr : root < h.length) :
    FirstChildPath h (getMainSequence h root) ∧ (getMainSequence h root).head? = some root ∧
    (getMainSequence h root).getLast? = some (getLastNode h root) ∧
    (getMainSequence h root).tail = getMainSequenceBelow h root := by
  have hf := isForest_edited he
  obtain ⟨l, hl⟩ := hf.rooted root hr
  obtain ⟨t, ids, h1, h2, _⟩ := rep_exists hf _ root l hl (Nat.le_refl _)
  have := firstChildren_path h.length _ root t ids h1 (nodup_length_le h2 (rep_lt h1))
  exact ⟨this.1, rfl, this.2, rfl⟩

/-- C23: expanding a game doesn't change its main sequence (the property maps are the same ones). -/
theorem C23_expansion (h : Heap α) (o : Nat) (p : α) (s : List α) (cs : List (Coarse α))
    (hc : (Coarse.mk (p :: s) cs).Nonempty) :
    ∃ h', makeTree (.mk (p :: s) cs) (h.newRoot o p) h.length = .ok h' ∧
      (getMainSequence h' h.length).map (fun j => (h'[j]?).map NodeRec.props) = (mainSequenceIter (.mk (p :: s) cs)).map some := by
  obtain ⟨h', t, ids, e1, e2, e3⟩ := makeTree_spec rfl hc (h := h.newRoot o p) (root := h.length) (o := o)
    ⟨by unfold Heap.newRoot; simp⟩
  refine ⟨h', e1, ?_⟩
  rw [C23_main_sequence e3.rep e3.nodup, C23_coarse _ hc t e2]

/-! ### C24 -/

theorem variations_of_nodes {c d : Coarse α} {t u : NTree α} (h : c.nodes = d.nodes) (hc : c.nodes = [t]) (hd : d.nodes = [u]) :
    t.variations = u.variations := by
  rw [hc, hd] at h
  rw [(List.cons.inj h).1]

/-- C24: expanding a coarse game tree and converting back gives a coarse tree standing for the same nodes; it is the same
coarse tree if that had no variation without siblings. -/
theorem C24_roundtrip (h : Heap α) (o : Nat) (p : α) (s : List α) (cs : List (Coarse α))
    (hc : (Coarse.mk (p :: s) cs).Nonempty) :
    ∃ h', makeTree (.mk (p :: s) cs) (h.newRoot o p) h.length = .ok h' ∧
      (makeCoarse h' h.length).nodes = (Coarse.mk (p :: s) cs).nodes ∧
      ((Coarse.mk (p :: s) cs).Canonical → makeCoarse h' h.length = .mk (p :: s) cs) ∧
      ∀ j, j < h.length → h'[j]? = h[j]? := by
  obtain ⟨h', t, ids, e1, e2, e3⟩ := makeTree_spec rfl hc (h := h.newRoot o p) (root := h.length) (o := o)
    ⟨by unfold Heap.newRoot; simp⟩
  obtain ⟨f1, f2⟩ := makeCoarse_spec e3.rep e3.nodup
  refine ⟨h', e1, by rw [f1, e2], fun hcan => canonical_unique f2 hcan (by rw [f1, e2]), ?_⟩
  intro j hj
  rw [e3.frame j (by unfold Heap.newRoot; simp; omega) (by omega)]
  unfold Heap.newRoot
  rw [List.getElem?_append_left hj]

/-- C24: the root-to-leaf sequences are the same, in the same order. -/
theorem C24_variations (h : Heap α) (o : Nat) (p : α) (s : List α) (cs : List (Coarse α))
    (hc : (Coarse.mk (p :: s) cs).Nonempty) :
    ∃ h' t u, makeTree (.mk (p :: s) cs) (h.newRoot o p) h.length = .ok h' ∧
      (Coarse.mk (p :: s) cs).nodes = [t] ∧ (makeCoarse h' h.length).nodes = [u] ∧ t.variations = u.variations := by
  obtain ⟨h', e1, e2, _⟩ := C24_roundtrip h o p s cs hc
  obtain ⟨t, ht⟩ := nodes_singleton hc
  exact ⟨h', t, t, e1, ht, by rw [e2, ht], rfl⟩

/-- C24: converting the nodes of a game to a coarse tree, after any edits, loses nothing. -/
theorem C24_edited {h : Heap α} (he : Edited h) (root : Nat) (hr : root < h.length) :
    ∃ t ids, Rep h (h.owner root) (h.parent root) root t ids ∧ ids.Nodup ∧ (makeCoarse h root).nodes = [t] ∧
      (makeCoarse h root).Canonical := by
  have hf := isForest_edited he
  obtain ⟨l, hl⟩ := hf.rooted root hr
  obtain ⟨t, ids, h1, h2, _⟩ := rep_exists hf _ root l hl (Nat.le_refl _)
  exact ⟨t, ids, h1, h2, makeCoarse_spec h1 h2⟩

/-! ### C25 -/

/-- C25: after any history of edits the nodes form trees: see `IsForest`. -/
theorem C25_forest {h : Heap α} (he : Edited h) : IsForest h := isForest_edited he

/-- C25: every listed child is listed exactly once, by exactly one node, its parent. -/
theorem C25_child_once {h : Heap α} (he : Edited h) (i c : Nat) (hc : c ∈ h.children i) :
    (h.children i).count c = 1 ∧ h.parent c = some i ∧ ∀ j, c ∈ h.children j → j = i := by
  have hf := isForest_edited he
  refine ⟨by rw [(hf.nodup i).count, if_pos hc], (hf.child i c hc).2, fun j hj => ?_⟩
  have h1 := (hf.child i c hc).2
  have h2 := (hf.child j c hj).2
  rw [h1] at h2
  exact (Option.some.inj h2).symm

/-- C25: below any node is a finite tree of distinct nodes. -/
theorem C25_tree {h : Heap α} (he : Edited h) (i : Nat) (hi : i < h.length) :
    ∃ t ids, Rep h (h.owner i) (h.parent i) i t ids ∧ ids.Nodup := by
  obtain ⟨t, ids, h1, h2, _⟩ := C24_edited he i hi
  exact ⟨t, ids, h1, h2⟩

theorem parents_path {h : Heap α} {i : Nat} {l : List Nat} (hp : PathUp h i l) {fuel : Nat} (hf : l.length ≤ fuel) :
    i :: parents h fuel i = l := by
  induction hp generalizing fuel with
  | @root i r e hp =>
    cases fuel with
    | zero => simp at hf
    | succ fuel => rw [parents, parent_of_get e, hp]
  | @up i p r l e hp _ ih =>
    cases fuel with
    | zero => simp at hf
    | succ fuel =>
      rw [parents, parent_of_get e, hp]
      simp only
      rw [ih (by simpa using hf)]

/-- C25: following parents from any node reaches the root of its game; `get_sequence_above` gives that path. -/
theorem C25_sequence_above {h : Heap α} (he : Edited h) (i : Nat) (hi : i < h.length) :
    PathUp h i (i :: (getSequenceAbove h i).reverse) := by
  have hf := isForest_edited he
  obtain ⟨l, hl⟩ := hf.rooted i hi
  unfold getSequenceAbove
  rw [List.reverse_reverse, parents_path hl hl.length_le]
  exact hl

theorem pathUp_root {h : Heap α} (hf : IsForest h) {i : Nat} {l : List Nat} (hp : PathUp h i l) :
    ∃ r ∈ l, h.parent r = none ∧ h.owner r = h.owner i := by
  induction hp with
  | @root i r e hp => exact ⟨i, by simp, by rw [parent_of_get e, hp], rfl⟩
  | @up i p r l e hp h' ih =>
    obtain ⟨r', h1, h2, h3⟩ := ih
    exact ⟨r', List.mem_cons_of_mem _ h1, h2, by rw [h3, (hf.parent i p (by rw [parent_of_get e, hp])).2]⟩

/-- C25: `reparent` raises ValueError exactly if the new parent belongs to another game, or is the node itself or one of
its descendants (in particular if the node is the root), or the node has been deleted from its parent.  It never fails in
another way. -/
theorem C25_reparent {h : Heap α} (he : Edited h) (node newParent : Nat) (index : Option Int) (h1 : node < h.length)
    (h2 : newParent < h.length) :
    ((h.owner newParent ≠ h.owner node ∨ AncestorOrSelf h node newParent ∨ (∀ i, node ∉ h.children i)) →
      h.reparent node newParent index = .error .valueError) ∧
    (¬ (h.owner newParent ≠ h.owner node ∨ AncestorOrSelf h node newParent ∨ (∀ i, node ∉ h.children i)) →
      ∃ h' p, h.reparent node newParent index = .ok h' ∧ h.parent node = some p ∧ node ∈ h.children p ∧
        h'.parent node = some newParent ∧ (∀ i, i ≠ node → h'.parent i = h.parent i) ∧
        h'.length = h.length ∧ (∀ i, h'.owner i = h.owner i) ∧
        (∀ i, i ≠ newParent → h'.children i = (h.children i).erase node) ∧
        h'.children newParent = (match index with
          | none => (h.children newParent).erase node ++ [node]
          | some k => listInsert ((h.children newParent).erase node) k node)) := by
  have hf := isForest_edited he
  obtain ⟨l, hl⟩ := hf.rooted newParent h2
  have hclimb := climbFinds_iff (node := node) hl hl.length_le
  rw [hl.ancestor] at hclimb
  -- a node with no parent is an ancestor of every node of its game
  have hroot : h.parent node = none → h.owner newParent = h.owner node → AncestorOrSelf h node newParent := by
    intro hp ho
    obtain ⟨r, g1, g2, g3⟩ := pathUp_root hf hl
    have : r = node := hf.oneRoot r node (hl.lt r g1) h1 g2 hp (by rw [g3, ho])
    rw [← hl.ancestor]
    exact this ▸ g1
  constructor
  · intro hbad
    unfold Heap.reparent
    split
    · rfl
    · rename_i ho
      simp only [ne_eq, Decidable.not_not] at ho
      split
      · rfl
      · rename_i hcl
        rw [hclimb] at hcl
        split
        · rename_i hp
          exact absurd (hroot hp ho) hcl
        · rename_i p hp
          split
          · rename_i hm
            rcases hbad with h' | h' | h'
            · exact absurd ho h'
            · exact absurd h' hcl
            · exact absurd hm (h' p)
          · rfl
  · intro hok
    simp only [not_or, ne_eq, Decidable.not_not] at hok
    obtain ⟨ho, ha, hc⟩ := hok
    have hc' : ∃ i, node ∈ h.children i := by
      apply Classical.byContradiction
      intro hno
      exact hc (fun i hi => hno ⟨i, hi⟩)
    obtain ⟨p, hp⟩ := hc'
    have hpp := (hf.child p node hp).2
    have hnm : ∀ i, i ≠ p → node ∉ h.children i := by
      intro i hi hm
      have := (hf.child i node hm).2
      rw [hpp] at this
      exact hi (Option.some.inj this).symm
    refine ⟨((h.setChildren p (fun cs => cs.erase node)).setParent node (some newParent)).setChildren newParent (placeChild index node),
      p, ?_, hpp, hp, ?_, ?_, ?_, ?_, ?_, ?_⟩
    · unfold Heap.reparent
      rw [if_neg (by simpa using ho), if_neg (fun e => ha (hclimb.1 e)), hpp]
      simp only
      rw [if_pos hp]
    · rw [sc_parent, sp_parent, setChildren_length, if_pos ⟨rfl, h1⟩]
    · intro i hi
      rw [sc_parent, sp_parent, sc_parent, if_neg (fun e => hi e.1.symm)]
    · rw [setChildren_length, setParent_length, setChildren_length]
    · intro i
      rw [sc_owner, sp_owner, sc_owner]
    · intro i hi
      rw [sc_children, if_neg (fun e => hi e.1.symm), sp_children, sc_children]
      split
      · rfl
      · rename_i hpi
        rw [List.erase_of_not_mem]
        apply hnm
        rintro rfl
        exact hpi ⟨rfl, children_lt hp⟩
    · rw [sc_children, if_pos ⟨rfl, by rw [setParent_length, setChildren_length]; exact h2⟩, sp_children, sc_children]
      have : (if p = newParent ∧ newParent < h.length then (h.children newParent).erase node else h.children newParent) =
          (h.children newParent).erase node := by
        split
        · rfl
        · rename_i hpi
          rw [List.erase_of_not_mem]
          apply hnm
          rintro rfl
          exact hpi ⟨rfl, h2⟩
      rw [this]
      rfl

/-- C25: `delete` raises ValueError exactly for the root and for a node already deleted; otherwise the node is no longer
listed anywhere, and everything else is unchanged. -/
theorem C25_delete {h : Heap α} (he : Edited h) (node : Nat) :
    ((∀ i, node ∉ h.children i) → h.delete node = .error .valueError) ∧
    (∀ p, node ∈ h.children p → ∃ h', h.delete node = .ok h' ∧ (∀ i, h'.children i = (h.children i).erase node) ∧
      (∀ i, node ∉ h'.children i) ∧ (∀ i, h'.parent i = h.parent i) ∧ (∀ i, h'.owner i = h.owner i) ∧ h'.length = h.length) := by
  have hf := isForest_edited he
  constructor
  · intro hno
    unfold Heap.delete
    split
    · rfl
    · rw [if_neg (hno _)]
  · intro p hp
    have hpp := (hf.child p node hp).2
    have hch : ∀ i, (h.setChildren p (fun cs => cs.erase node)).children i = (h.children i).erase node := by
      intro i
      rw [sc_children]
      split
      · rfl
      · rename_i hpi
        rw [List.erase_of_not_mem]
        intro hm
        have := (hf.child i node hm).2
        rw [hpp] at this
        have := Option.some.inj this
        exact hpi ⟨this, children_lt hm⟩
    refine ⟨h.setChildren p (fun cs => cs.erase node), ?_, hch, ?_, fun i => sc_parent i, fun i => sc_owner i, setChildren_length⟩
    · unfold Heap.delete
      rw [hpp]
      simp only
      rw [if_pos hp]
    · intro i hm
      rw [hch] at hm
      exact ((hf.nodup i).mem_erase_iff.1 hm).1 rfl

/-- C25: `new_child` adds a node which is listed by its parent, at the place asked for, and changes nothing else. -/
theorem C25_new_child (h : Heap α) (node : Nat) (p : α) (index : Option Int) (hn : node < h.length) :
    (h.newChild node p index).length = h.length + 1 ∧
    (h.newChild node p index).parent h.length = some node ∧ (h.newChild node p index).children h.length = [] ∧
    (h.newChild node p index).owner h.length = h.owner node ∧
    (h.newChild node p index).children node = (match index with
      | none => h.children node ++ [h.length]
      | some k => listInsert (h.children node) k h.length) ∧
    (∀ i, i < h.length → i ≠ node → (h.newChild node p index)[i]? = h[i]?) := by
  unfold Heap.newChild Heap.newNode
  refine ⟨by rw [setChildren_length]; simp, ?_, ?_, ?_, ?_, ?_⟩
  · rw [sc_parent, (app_fields _).2.1, if_pos rfl]
  · rw [sc_children, (app_fields _).1, if_pos rfl, if_neg (by omega)]
  · rw [sc_owner, (app_fields _).2.2, if_pos rfl]
  · rw [sc_children, if_pos ⟨rfl, by simp; omega⟩, (app_fields _).1, if_neg (by omega)]
    rfl
  · intro i hi hne
    rw [setChildren_get, List.getElem?_append_left hi]
    have : ¬ node = i := fun e => hne e.symm
    cases h[i]? <;> simp [this]

theorem findLoop_spec {h : Heap α} (hasProp : α → Bool) {i : Nat} {l : List Nat} (hp : PathUp h i l) {fuel : Nat} (hf : l.length ≤ fuel) :
    findLoop h hasProp fuel i = l.find? (fun j => match h[j]? with | some r => hasProp r.props | none => false) := by
  induction hp generalizing fuel with
  | @root i r e hp =>
    cases fuel with
    | zero => simp at hf
    | succ fuel =>
      rw [findLoop, e]
      simp only [hp, List.find?_cons, List.find?_nil, e]
      cases hasProp r.props <;> simp
  | @up i p r l e hp _ ih =>
    cases fuel with
    | zero => simp at hf
    | succ fuel =>
      rw [findLoop, e, List.find?_cons, e]
      simp only [hp]
      rw [ih (by simpa using hf)]
      cases hasProp r.props <;> simp

/-- C25: `find` gives the nearest of the node and its ancestors that has the property, or None if none has. -/
theorem C25_find {h : Heap α} (he : Edited h) (hasProp : α → Bool) (i : Nat) (hi : i < h.length) :
    h.find hasProp i = (i :: (getSequenceAbove h i).reverse).find? (fun j => match h[j]? with | some r => hasProp r.props | none => false) := by
  have hp := C25_sequence_above he i hi
  exact findLoop_spec hasProp hp hp.length_le

/-- A game with a few variations. -/
def exampleCoarse : Coarse Nat := .mk [0, 1] [.mk [2, 3] [], .mk [4] [.mk [5] []], .mk [6] []]

theorem exampleCoarse_nonempty : exampleCoarse.Nonempty := by
  refine .mk ?_
  intro c hc
  simp only [List.mem_cons, List.not_mem_nil, or_false] at hc
  rcases hc with rfl | rfl | rfl
  · exact .mk (by simp)
  · refine .mk ?_
    intro c hc
    simp only [List.mem_cons, List.not_mem_nil, or_false] at hc
    subst hc
    exact .mk (by simp)
  · exact .mk (by simp)

/-- C23, C24: non-vacuity. -/
theorem C23_witness : mainSequenceIter exampleCoarse = [0, 1, 2, 3] ∧ exampleCoarse.Nonempty := ⟨rfl, exampleCoarse_nonempty⟩

/-- C24: non-vacuity. -/
theorem C24_witness : ∃ t, exampleCoarse.nodes = [t] ∧ t.variations = [[0, 1, 2, 3], [0, 1, 4, 5], [0, 1, 6]] := ⟨_, rfl, rfl⟩

/-- C25: non-vacuity: a history with a load, a new child, a move (with a negative index), a deletion, and edits that fail. -/
theorem C25_witness : ∃ h : Heap Nat, Edited h ∧ h.children 1 = [2, 3] ∧ h.children 3 = [7, 5] ∧ h.parent 4 = some 1 ∧
    getSequenceAbove h 5 = [0, 1, 3] ∧ h.reparent 1 5 none = .error .valueError ∧ h.reparent 4 3 none = .error .valueError ∧
    h.delete 0 = .error .valueError := by
  let h1 : Heap Nat := [⟨1, none, [1], 0⟩, ⟨1, some 0, [2, 3, 4], 1⟩, ⟨1, some 1, [6], 2⟩, ⟨1, some 1, [5], 4⟩, ⟨1, some 1, [], 6⟩,
    ⟨1, some 3, [], 5⟩, ⟨1, some 2, [], 3⟩]
  have e1 : Edited h1 := .step .start (e := .load 1 0 exampleCoarse) (by intro i hi; simp at hi) rfl
  let h2 : Heap Nat := [⟨1, none, [1], 0⟩, ⟨1, some 0, [2, 3, 4, 7], 1⟩, ⟨1, some 1, [6], 2⟩, ⟨1, some 1, [5], 4⟩, ⟨1, some 1, [], 6⟩,
    ⟨1, some 3, [], 5⟩, ⟨1, some 2, [], 3⟩, ⟨1, some 1, [], 9⟩]
  have e2 : Edited h2 := .step e1 (e := .newChild 1 9 none) (by show 1 < 7; decide) rfl
  let h3 : Heap Nat := [⟨1, none, [1], 0⟩, ⟨1, some 0, [2, 3, 4], 1⟩, ⟨1, some 1, [6], 2⟩, ⟨1, some 1, [7, 5], 4⟩, ⟨1, some 1, [], 6⟩,
    ⟨1, some 3, [], 5⟩, ⟨1, some 2, [], 3⟩, ⟨1, some 3, [], 9⟩]
  have e3 : Edited h3 := .step e2 (e := .reparent 7 3 (some (-5))) (by show 7 < 8 ∧ 3 < 8; decide) rfl
  let h4 : Heap Nat := [⟨1, none, [1], 0⟩, ⟨1, some 0, [2, 3], 1⟩, ⟨1, some 1, [6], 2⟩, ⟨1, some 1, [7, 5], 4⟩, ⟨1, some 1, [], 6⟩,
    ⟨1, some 3, [], 5⟩, ⟨1, some 2, [], 3⟩, ⟨1, some 3, [], 9⟩]
  have e4 : Edited h4 := .step e3 (e := .delete 4) (by show 4 < 8; decide) rfl
  exact ⟨h4, e4, rfl, rfl, rfl, rfl, rfl, rfl, rfl⟩

end Gomill.Sgf
