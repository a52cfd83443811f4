import Verif.Spec.SgfGame
import Verif.Lemmas.SgfEdit
import Verif.Lemmas.SgfNode
import Verif.Lemmas.SgfTotal
import Verif.Props.SgfTree
import Verif.Props.SgfNode
import Verif.Props.SgfGrammar
/-
Lemmas about SGF games: conversions between the two forms of coarse trees, corresponding trees, and the invariant of
sessions.
-/
namespace Gomill.Sgf

open Py

/-! ### coarse trees -/

theorem coarseList_eq (l : List CTree) : CTree.coarse.coarseList l = l.map CTree.coarse := by
  induction l with
  | nil => rfl
  | cons t ts ih => rw [CTree.coarse.coarseList, ih]; rfl

theorem ctreeList_eq (l : List (Coarse PropMap)) : Coarse.ctree.ctreeList l = l.map Coarse.ctree := by
  induction l with
  | nil => rfl
  | cons t ts ih => rw [Coarse.ctree.ctreeList, ih]; rfl

mutual
theorem coarse_ctree : ∀ c : Coarse PropMap, c.ctree.coarse = c
  | .mk sq ch => by rw [Coarse.ctree, CTree.coarse, coarseList_ctreeList ch]
theorem coarseList_ctreeList : ∀ ch : List (Coarse PropMap), CTree.coarse.coarseList (Coarse.ctree.ctreeList ch) = ch
  | [] => rfl
  | c :: cs => by rw [Coarse.ctree.ctreeList, CTree.coarse.coarseList, coarse_ctree c, coarseList_ctreeList cs]
end

/-! ### corresponding trees -/

variable {R : PropMap → PropMap → Prop}

/-- Corresponding lists of trees. -/
def CorrL (R : PropMap → PropMap → Prop) (us us' : List (NTree PropMap)) : Prop :=
  us.length = us'.length ∧ ∀ i (h : i < us.length) (h' : i < us'.length), Corresponds R us[i] us'[i]

theorem corrL_append {a b a' b' : List (NTree PropMap)} (h1 : CorrL R a a') (h2 : CorrL R b b') : CorrL R (a ++ b) (a' ++ b') := by
  refine ⟨by simp [h1.1, h2.1], ?_⟩
  intro i h h'
  by_cases hi : i < a.length
  · rw [List.getElem_append_left hi, List.getElem_append_left (by rw [← h1.1]; exact hi)]
    exact h1.2 i hi _
  · have e := h1.1
    rw [List.getElem_append_right (by omega), List.getElem_append_right (by omega)]
    have := h2.2 (i - a.length) (by simp at h; omega) (by simp at h'; omega)
    simp only [e] at this ⊢
    exact this

theorem corrL_single {t t' : NTree PropMap} (h : Corresponds R t t') : CorrL R [t] [t'] := by
  refine ⟨rfl, ?_⟩
  intro i hi hi'
  have : i = 0 := by simp at hi; omega
  subst this
  exact h

theorem corrL_chain : ∀ {s s' : List PropMap} {us us' : List (NTree PropMap)}, CorrL R us us' → s.length = s'.length →
    (∀ i (h : i < s.length) (h' : i < s'.length), R s[i] s'[i]) → CorrL R (chain s us) (chain s' us')
  | [], [], _, _, hu, _, _ => hu
  | [], _ :: _, _, _, _, hl, _ => by simp at hl
  | _ :: _, [], _, _, _, hl, _ => by simp at hl
  | p :: s, p' :: s', us, us', hu, hl, hr => by
    rw [chain_cons, chain_cons]
    have := corrL_chain (s := s) (s' := s') hu (by simpa using hl) (fun i h h' => hr (i+1) (by simpa using h) (by simpa using h'))
    exact corrL_single (.mk (hr 0 (by simp) (by simp)) this.1 this.2)

/-- Coarse trees of the same arrangement, with related property maps. -/
inductive TreeRel (R : PropMap → PropMap → Prop) : CTree → CTree → Prop
  | mk {sq sq' : List PropMap} {ch ch' : List CTree} :
      sq.length = sq'.length → (∀ i (h : i < sq.length) (h' : i < sq'.length), R sq[i] sq'[i]) →
      ch.length = ch'.length → (∀ i (h : i < ch.length) (h' : i < ch'.length), TreeRel R ch[i] ch'[i]) →
      TreeRel R (.mk sq ch) (.mk sq' ch')

theorem treeRel_of_same {t t' : CTree} (h : SameTree t t') : TreeRel SameMap t t' := by
  induction h with
  | mk h1 h2 h3 _ ih => exact .mk h1 h2 h3 ih

theorem corrL_nodesL : ∀ {ch ch' : List CTree}, ch.length = ch'.length →
    (∀ i (h : i < ch.length) (h' : i < ch'.length), CorrL R ch[i].coarse.nodes ch'[i].coarse.nodes) →
    CorrL R (nodesL (CTree.coarse.coarseList ch)) (nodesL (CTree.coarse.coarseList ch'))
  | [], [], _, _ => ⟨rfl, by intro i h; simp [CTree.coarse.coarseList, nodesL] at h⟩
  | [], _ :: _, hl, _ => by simp at hl
  | _ :: _, [], hl, _ => by simp at hl
  | c :: cs, c' :: cs', hl, hr => by
    rw [CTree.coarse.coarseList, CTree.coarse.coarseList, nodesL, nodesL]
    refine corrL_append (hr 0 (by simp) (by simp)) (corrL_nodesL (by simpa using hl) ?_)
    intro i h h'
    exact hr (i+1) (by simpa using h) (by simpa using h')

theorem treeRel_nodes {t t' : CTree} (h : TreeRel R t t') : CorrL R t.coarse.nodes t'.coarse.nodes := by
  induction h with
  | mk h1 h2 h3 _ ih =>
    rw [CTree.coarse, CTree.coarse, Coarse.nodes, Coarse.nodes]
    exact corrL_chain (corrL_nodesL h3 ih) h1 h2

theorem corrL_singleton {t t' : NTree PropMap} (h : CorrL R [t] [t']) : Corresponds R t t' := h.2 0 (by simp) (by simp)

/-! ### property maps of trees -/

theorem chain_has {Q : PropMap → Prop} : ∀ {s : List PropMap} {us : List (NTree PropMap)},
    (∀ u ∈ chain s us, ∀ m, u.Has m → Q m) → (∀ m ∈ s, Q m) ∧ ∀ u ∈ us, ∀ m, u.Has m → Q m
  | [], us, h => ⟨by simp, h⟩
  | p :: s, us, h => by
    rw [chain_cons] at h
    have h' := h _ (List.mem_singleton_self _)
    obtain ⟨a, b⟩ := chain_has (Q := Q) (s := s) (us := us) (fun u hu m hm => h' m (.inChild hu hm))
    refine ⟨?_, b⟩
    intro m hm
    rcases List.mem_cons.1 hm with rfl | hm
    · exact h' _ .here
    · exact a m hm

theorem mem_nodesL {c : Coarse PropMap} {cs : List (Coarse PropMap)} (h : c ∈ cs) {u : NTree PropMap} (hu : u ∈ c.nodes) :
    u ∈ nodesL cs := by
  induction cs with
  | nil => simp at h
  | cons d cs ih =>
    rw [nodesL]
    rcases List.mem_cons.1 h with rfl | h
    · exact List.mem_append_left _ hu
    · exact List.mem_append_right _ (ih h)

theorem validTree_ctree {c : Coarse PropMap} (hc : c.Nonempty) (h : ∀ u ∈ c.nodes, ∀ m, u.Has m → ValidMap m) : ValidTree c.ctree := by
  induction hc with
  | @mk p s cs _ ih =>
    rw [Coarse.nodes] at h
    obtain ⟨h1, h2⟩ := chain_has h
    rw [Coarse.ctree, ctreeList_eq]
    refine .mk (by simp) h1 ?_
    intro d hd
    obtain ⟨e, he, rfl⟩ := List.mem_map.1 hd
    exact ih e he (fun u hu => h2 u (mem_nodesL he hu))

theorem nonempty_coarse {t : CTree} (h : ValidTree t) : t.coarse.Nonempty := by
  induction h with
  | @mk sq ch h1 _ _ ih =>
    rw [CTree.coarse, coarseList_eq]
    cases sq with
    | nil => exact absurd rfl h1
    | cons p s =>
      refine .mk ?_
      intro c hc
      obtain ⟨d, hd, rfl⟩ := List.mem_map.1 hc
      exact ih d hd

theorem repL_mem {h : Heap PropMap} {o : Nat} {par : Option Nat} : ∀ {is : List Nat} {ts : List (NTree PropMap)} {ids : List Nat},
    RepL h o par is ts ids → ∀ t ∈ ts, ∃ i a, Rep h o par i t a
  | [], [], _, _, t, ht => by simp at ht
  | i :: is, u :: us, ids, hr, t, ht => by
    rw [RepL] at hr
    obtain ⟨a, b, _, h1, h2⟩ := hr
    rcases List.mem_cons.1 ht with rfl | ht
    · exact ⟨i, a, h1⟩
    · exact repL_mem h2 t ht
  | [], _ :: _, _, hr, _, _ => by simp [RepL] at hr
  | _ :: _, [], _, hr, _, _ => by simp [RepL] at hr

theorem rep_has {h : Heap PropMap} {o : Nat} {m : PropMap} {t : NTree PropMap} (hm : t.Has m) : ∀ {par : Option Nat} {i : Nat} {ids : List Nat},
    Rep h o par i t ids → ∃ (j : Nat) (r : NodeRec PropMap), h[j]? = some r ∧ r.props = m ∧ r.owner = o := by
  induction hm with
  | here =>
    intro par i ids hr
    rw [Rep] at hr
    obtain ⟨r, rest, _, h1, h2, _, h4, _⟩ := hr
    exact ⟨i, r, h1, h2, h4⟩
  | inChild hmem _ ih =>
    intro par i ids hr
    rw [Rep] at hr
    obtain ⟨r, rest, _, _, _, _, _, h5⟩ := hr
    obtain ⟨i', a, h6⟩ := repL_mem h5 _ hmem
    exact ih h6

theorem rep_root {h : Heap PropMap} {o i : Nat} {par : Option Nat} {t : NTree PropMap} {ids : List Nat} (hr : Rep h o par i t ids) :
    ∃ ts, t = .mk (h.props i) ts := by
  cases t with
  | mk p ts =>
    rw [Rep] at hr
    obtain ⟨r, rest, _, h1, h2, _⟩ := hr
    exact ⟨ts, by rw [Heap.props, h1, ← h2]⟩

/-! ### the invariant of sessions -/

/-- Every record of `h'` is one of `h` with perhaps other children, or is a new one with valid properties. -/
def Extends (Q : NodeRec PropMap → Prop) (h h' : Heap PropMap) : Prop :=
  h.length ≤ h'.length ∧
  (∀ (i : Nat) r', i < h.length → h'[i]? = some r' → ∃ r, h[i]? = some r ∧ r'.props = r.props ∧ r'.owner = r.owner ∧ (r.parent = none → r'.parent = none)) ∧
  ∀ (i : Nat) r', h.length ≤ i → h'[i]? = some r' → Q r'

theorem extends_refl (Q : NodeRec PropMap → Prop) (h : Heap PropMap) : Extends Q h h :=
  ⟨Nat.le_refl _, fun i r' _ e => ⟨r', e, rfl, rfl, id⟩, fun i r' hi e => by rw [List.getElem?_eq_none hi] at e; cases e⟩

theorem extends_trans {Q : NodeRec PropMap → Prop} (hQ : ∀ r r' : NodeRec PropMap, r'.props = r.props → r'.owner = r.owner → Q r → Q r')
    {h h' h'' : Heap PropMap} (h1 : Extends Q h h') (h2 : Extends Q h' h'') : Extends Q h h'' := by
  obtain ⟨a1, a2, a3⟩ := h1
  obtain ⟨b1, b2, b3⟩ := h2
  refine ⟨by omega, ?_, ?_⟩
  · intro i r' hi e
    obtain ⟨r1, e1, e2, e3, e4⟩ := b2 i r' (by omega) e
    obtain ⟨r2, f1, f2, f3, f4⟩ := a2 i r1 hi e1
    exact ⟨r2, f1, by rw [e2, f2], by rw [e3, f3], fun h => e4 (f4 h)⟩
  · intro i r' hi e
    by_cases hi' : i < h'.length
    · obtain ⟨r1, e1, e2, e3, _⟩ := b2 i r' hi' e
      exact hQ r1 r' e2 e3 (a3 i r1 hi e1)
    · exact b3 i r' (by omega) e

theorem extends_setChildren (Q : NodeRec PropMap → Prop) (h : Heap PropMap) (n : Nat) (f : List Nat → List Nat) :
    Extends Q h (h.setChildren n f) := by
  refine ⟨by rw [setChildren_length], ?_, ?_⟩
  · intro i r' _ e
    unfold Heap.setChildren at e
    rw [List.getElem?_modify] at e
    cases hr : h[i]? with
    | none => rw [hr] at e; simp at e
    | some r =>
      rw [hr] at e
      simp only [Option.map_eq_map, Option.map_some, Option.some.injEq] at e
      refine ⟨r, rfl, ?_⟩
      split at e <;> (subst e; exact ⟨rfl, rfl, id⟩)
  · intro i r' hi e
    rw [List.getElem?_eq_none (by rw [setChildren_length]; exact hi)] at e
    cases e

theorem extends_app (Q : NodeRec PropMap → Prop) (h : Heap PropMap) (r : NodeRec PropMap) (hr : Q r) : Extends Q h (h ++ [r]) := by
  refine ⟨by simp, ?_, ?_⟩
  · intro i r' hi e
    rw [List.getElem?_append_left hi] at e
    exact ⟨r', e, rfl, rfl, id⟩
  · intro i r' hi e
    rw [List.getElem?_append_right hi] at e
    have : i - h.length = 0 := by
      by_contra hne
      rw [List.getElem?_eq_none (by simp; omega)] at e
      cases e
    rw [this] at e
    simp at e
    subst e
    exact hr

theorem extends_newChild {Q : NodeRec PropMap → Prop} (hQ : ∀ r r' : NodeRec PropMap, r'.props = r.props → r'.owner = r.owner → Q r → Q r')
    (h : Heap PropMap) (n : Nat) (p : PropMap) (index : Option Int) (hp : Q ⟨h.owner n, some n, [], p⟩) :
    Extends Q h (h.newChild n p index) :=
  extends_trans hQ (extends_app Q h _ hp) (extends_setChildren Q _ n _)

mutual
theorem ctree_coarse : ∀ c : CTree, c.coarse.ctree = c
  | .mk sq ch => by rw [CTree.coarse, Coarse.ctree, ctreeList_coarseList ch]
theorem ctreeList_coarseList : ∀ ch : List CTree, Coarse.ctree.ctreeList (CTree.coarse.coarseList ch) = ch
  | [] => rfl
  | c :: cs => by rw [CTree.coarse.coarseList, Coarse.ctree.ctreeList, ctree_coarse c, ctreeList_coarseList cs]
end

/-- What is known about new nodes of game `o`. -/
def NewOk (o : Nat) (r : NodeRec PropMap) : Prop := ValidMap r.props ∧ r.owner = o

theorem newOk_congr (o : Nat) (r r' : NodeRec PropMap) (h1 : r'.props = r.props) (h2 : r'.owner = r.owner) (h : NewOk o r) : NewOk o r' := by
  unfold NewOk; rw [h1, h2]; exact h

theorem extends_owner {Q : NodeRec PropMap → Prop} {h h' : Heap PropMap} (he : Extends Q h h') {i : Nat} (hi : i < h.length) : h'.owner i = h.owner i := by
  obtain ⟨a, b, _⟩ := he
  obtain ⟨r', hr'⟩ : ∃ r', h'[i]? = some r' := ⟨_, List.getElem?_eq_getElem (by omega)⟩
  obtain ⟨r, e1, _, e3, _⟩ := b i r' hi hr'
  rw [owner_of_get hr', owner_of_get e1, e3]

/-- What is known about entries of the stack of `make_tree`. -/
def StackOk (o : Nat) (h : Heap PropMap) (st : List (Nat × Coarse PropMap × Nat)) : Prop :=
  ∀ x ∈ st, x.1 < h.length ∧ h.owner x.1 = o ∧ ValidTree x.2.1.ctree

theorem stackOk_extends {o : Nat} {h h' : Heap PropMap} {st : List (Nat × Coarse PropMap × Nat)} (hs : StackOk o h st)
    (he : Extends (NewOk o) h h') : StackOk o h' st := by
  intro x hx
  obtain ⟨h1, h2, h3⟩ := hs x hx
  exact ⟨by have := he.1; omega, by rw [extends_owner he h1, h2], h3⟩

theorem validTree_mk {sq : List PropMap} {ch : List (Coarse PropMap)} (h : ValidTree (Coarse.mk sq ch).ctree) :
    (∀ m ∈ sq, ValidMap m) ∧ ∀ c ∈ ch, ValidTree c.ctree := by
  rw [Coarse.ctree, ctreeList_eq] at h
  cases h with
  | mk _ h1 h2 => exact ⟨h1, fun c hc => h2 _ (List.mem_map_of_mem hc)⟩

theorem newChild_owner (h : Heap PropMap) (n : Nat) (p : PropMap) (index : Option Int) : (h.newChild n p index).owner h.length = h.owner n := by
  unfold Heap.newChild Heap.newNode
  rw [sc_owner, (app_fields _).2.2, if_pos rfl]

theorem extends_addChildTrees {o : Nat} (node : Nat) : ∀ (cs : List (Coarse PropMap)) (h : Heap PropMap) (st : List (Nat × Coarse PropMap × Nat))
    (h' : Heap PropMap) (st' : List (Nat × Coarse PropMap × Nat)), node < h.length → h.owner node = o → StackOk o h st →
    (∀ c ∈ cs, ValidTree c.ctree) → addChildTrees node cs h st = .ok (h', st') → Extends (NewOk o) h h' ∧ StackOk o h' st' := by
  intro cs
  induction cs with
  | nil =>
    intro h st h' st' _ _ hst _ he
    rw [addChildTrees] at he
    cases he
    exact ⟨extends_refl _ _, hst⟩
  | cons c cs ih =>
    intro h st h' st' hn ho hst hc he
    obtain ⟨s, ccs⟩ := c
    cases s with
    | nil => rw [addChildTrees] at he; simp at he
    | cons p s =>
      rw [addChildTrees, grow_eq_newChild] at he
      have hl := newChild_length h node p none
      have hv := hc _ (List.mem_cons_self ..)
      have hx : Extends (NewOk o) h (h.newChild node p none) :=
        extends_newChild (newOk_congr o) h node p none ⟨(validTree_mk hv).1 p (by simp), ho⟩
      obtain ⟨e1, e2⟩ := ih _ _ _ _ (by omega) (by rw [extends_owner hx hn, ho]) (by
        intro x hxm
        rcases List.mem_cons.1 hxm with rfl | hxm
        · refine ⟨by simp only; omega, ?_, hv⟩
          rw [newChild_owner, ho]
        · exact stackOk_extends hst hx x hxm) (fun c hcm => hc c (List.mem_cons_of_mem _ hcm)) he
      exact ⟨extends_trans (newOk_congr o) hx e1, e2⟩

theorem extends_makeTreeLoop {o : Nat} : ∀ (fuel : Nat) (h : Heap PropMap) (st : List (Nat × Coarse PropMap × Nat)) (h' : Heap PropMap),
    StackOk o h st → makeTreeLoop fuel h st = .ok h' → Extends (NewOk o) h h' := by
  intro fuel
  induction fuel with
  | zero =>
    intro h st h' _ he
    cases st <;> (rw [makeTreeLoop] at he; cases he; exact extends_refl _ _)
    all_goals simp
  | succ fuel ih =>
    intro h st h' hst he
    cases st with
    | nil => rw [makeTreeLoop] at he; cases he; exact extends_refl _ _
    | cons x st =>
      obtain ⟨node, ⟨seq, cs⟩, index⟩ := x
      obtain ⟨hn, ho, hv⟩ := hst _ (List.mem_cons_self ..)
      simp only at hn ho hv
      rw [makeTreeLoop] at he
      split at he
      · split at he
        · simp at he
        · rename_i p hp
          rw [grow_eq_newChild] at he
          have hl := newChild_length h node p none
          have hx : Extends (NewOk o) h (h.newChild node p none) :=
            extends_newChild (newOk_congr o) h node p none ⟨(validTree_mk hv).1 p (List.mem_of_getElem? hp), ho⟩
          refine extends_trans (newOk_congr o) hx (ih _ _ _ ?_ he)
          intro x hxm
          rcases List.mem_cons.1 hxm with rfl | hxm
          · refine ⟨by simp only; omega, ?_, hv⟩
            rw [newChild_owner, ho]
          · exact stackOk_extends hst hx x (List.mem_cons_of_mem _ hxm)
      · split at he
        · simp at he
        · rename_i h2 st2 he2
          have hx := extends_setChildren (NewOk o) h node (fun _ => [])
          have hst' : StackOk o (h.setChildren node (fun _ => [])) st := by
            intro x hxm
            exact stackOk_extends hst hx x (List.mem_cons_of_mem _ hxm)
          obtain ⟨e1, e2⟩ := extends_addChildTrees node cs _ st h2 st2 (by rw [setChildren_length]; exact hn)
            (by rw [sc_owner]; exact ho) hst' (validTree_mk hv).2 he2
          exact extends_trans (newOk_congr o) hx (extends_trans (newOk_congr o) e1 (ih _ _ _ e2 he))

/-- The invariant of sessions. -/
structure LibInv (F : Floats) (E : Encodings) (L : Lib) : Prop where
  edited : Edited L.heap
  nodes : ∀ (i : Nat) (r : NodeRec PropMap), L.heap[i]? = some r → ValidMap r.props ∧ r.owner < L.games.length
  games : ∀ (o : Nat) (g : GameRec), L.games[o]? = some g → ∃ r : NodeRec PropMap, L.heap[g.root]? = some r ∧ r.owner = o ∧ r.parent = none ∧
    EffectiveSize r.props g.presenter.size ∧ 1 ≤ g.presenter.size ∧ g.presenter.size ≤ 26 ∧ g.presenter.codec = E.codec g.encoding ∧
    g.presenter.floats = F ∧ ∃ s, E.normalise s = some g.encoding

theorem extends_setParent {Q : NodeRec PropMap → Prop} {h : Heap PropMap} {n p : Nat} {q : Option Nat} (hp : h.parent n = some p) :
    Extends Q h (h.setParent n q) := by
  refine ⟨by rw [setParent_length], ?_, ?_⟩
  · intro i r' _ e
    rw [setParent_get] at e
    cases hr : h[i]? with
    | none => rw [hr] at e; simp at e
    | some r =>
      rw [hr] at e
      simp only [Option.map_some, Option.some.injEq] at e
      refine ⟨r, rfl, ?_⟩
      split at e
      · rename_i hni
        subst hni
        subst e
        refine ⟨rfl, rfl, ?_⟩
        intro hn
        rw [parent_of_get hr, hn] at hp
        cases hp
      · subst e; exact ⟨rfl, rfl, id⟩
  · intro i r' hi e
    rw [List.getElem?_eq_none (by rw [setParent_length]; exact hi)] at e
    cases e

variable {E : Encodings} {F : Floats}

theorem inv_heap {L : Lib} (hi : LibInv F E L) {h' : Heap PropMap} {k : Nat} (hk : k < L.games.length) (hx : Extends (NewOk k) L.heap h')
    (he : Edited h') : LibInv F E { L with heap := h' } := by
  obtain ⟨x1, x2, x3⟩ := hx
  refine ⟨he, ?_, ?_⟩
  · intro i r' hr'
    by_cases hl : i < L.heap.length
    · obtain ⟨r, e1, e2, e3, _⟩ := x2 i r' hl hr'
      have := hi.nodes i r e1
      rw [e2, e3]; exact this
    · have := x3 i r' (by omega) hr'
      exact ⟨this.1, by rw [this.2]; exact hk⟩
  · intro o g hg
    obtain ⟨r, a1, a2, a3, a4, a5⟩ := hi.games o g hg
    have hlt : g.root < L.heap.length := (List.getElem?_eq_some_iff.1 a1).1
    obtain ⟨r', hr'⟩ : ∃ r', h'[g.root]? = some r' := ⟨_, List.getElem?_eq_getElem (by omega)⟩
    obtain ⟨r0, e1, e2, e3, e4⟩ := x2 _ r' hlt hr'
    rw [a1] at e1
    cases e1
    exact ⟨r', hr', by rw [e3, a2], e4 a3, by rw [e2]; exact a4, a5⟩

theorem inv_game {L : Lib} (hi : LibInv F E L) {h' : Heap PropMap} (hx : Extends (NewOk L.games.length) L.heap h')
    (he : Edited h') {P : Presenter} {n : Str} {r : NodeRec PropMap} (hr : h'[L.heap.length]? = some r) (h2 : r.owner = L.games.length)
    (h3 : r.parent = none) (h4 : EffectiveSize r.props P.size) (h5 : 1 ≤ P.size) (h6 : P.size ≤ 26) (h7 : P.codec = E.codec n) (h8 : P.floats = F)
    (h9 : ∃ s, E.normalise s = some n) :
    LibInv F E { heap := h', games := L.games ++ [⟨P, n, L.heap.length⟩] } := by
  obtain ⟨x1, x2, x3⟩ := hx
  refine ⟨he, ?_, ?_⟩
  · intro i r' hr'
    simp only [List.length_append, List.length_singleton]
    by_cases hl : i < L.heap.length
    · obtain ⟨r, e1, e2, e3, _⟩ := x2 i r' hl hr'
      have := hi.nodes i r e1
      rw [e2, e3]; exact ⟨this.1, by omega⟩
    · have := x3 i r' (by omega) hr'
      exact ⟨this.1, by rw [this.2]; omega⟩
  · intro o g hg
    simp only at hg
    by_cases ho : o < L.games.length
    · rw [List.getElem?_append_left ho] at hg
      obtain ⟨r, a1, a2, a3, a4, a5⟩ := hi.games o g hg
      have hlt : g.root < L.heap.length := (List.getElem?_eq_some_iff.1 a1).1
      obtain ⟨r', hr'⟩ : ∃ r', h'[g.root]? = some r' := ⟨_, List.getElem?_eq_getElem (by omega)⟩
      obtain ⟨r0, e1, e2, e3, e4⟩ := x2 _ r' hlt hr'
      rw [a1] at e1
      cases e1
      exact ⟨r', hr', by rw [e3, a2], e4 a3, by rw [e2]; exact a4, a5⟩
    · rw [List.getElem?_append_right (by omega)] at hg
      have : o = L.games.length := by
        by_contra hne
        rw [List.getElem?_eq_none (by simp; omega)] at hg
        cases hg
      subst this
      simp at hg
      subst hg
      exact ⟨r, hr, h2, h3, h4, h5, h6, h7, h8, h9⟩

theorem makePresenter_ok {size : Int} {encoding : Str} {P : Presenter} {n : Str} (h : makePresenter E F size encoding = .ok (P, n)) :
    1 ≤ size ∧ size ≤ 26 ∧ E.normalise encoding = some n ∧ P = Presenter.new size (E.codec n) F := by
  unfold makePresenter at h
  split at h
  · cases h
  · rename_i hs
    simp only [Decidable.not_not] at hs
    split at h
    · cases h
    · rename_i m hm
      cases h
      exact ⟨hs.1, hs.2, hm, rfl⟩

theorem fresh_owner {L : Lib} (hi : LibInv F E L) : ∀ i, i < L.heap.length → L.heap.owner i ≠ L.games.length := by
  intro i h
  have e := List.getElem?_eq_getElem h
  have := (hi.nodes i _ e).2
  rw [owner_of_get e]
  omega

theorem newRoot_extends {L : Lib} {p : PropMap} (hv : ValidMap p) : Extends (NewOk L.games.length) L.heap (L.heap.newRoot L.games.length p) :=
  extends_app _ _ _ ⟨hv, rfl⟩

theorem newRoot_get (h : Heap PropMap) (o : Nat) (p : PropMap) : (h.newRoot o p)[h.length]? = some ⟨o, none, [], p⟩ := by
  unfold Heap.newRoot; simp

theorem validMap_nil : ValidMap [] := ⟨by simp, by simp, by simp, by simp⟩

theorem setRaw_effective {P : Presenter} {m : PropMap} (i : Str) (v : Raw) (h : EffectiveSize m P.size) : EffectiveSize (setRaw P m i v).1 P.size :=
  C51_size P m h (.setRaw i v)

theorem setRaw_valid {P : Presenter} (hF : ∀ q, ∀ c ∈ P.floats.repr q, c ≠ ']' ∧ c ≠ '\\') {m : PropMap} (i : Str) (v : Raw) (h : ValidMap m) :
    ValidMap (setRaw P m i v).1 := C51_valid P hF m h (.setRaw i v)

theorem newGameProps_ok {P : Presenter} (hF : ∀ q, ∀ c ∈ P.floats.repr q, c ≠ ']' ∧ c ≠ '\\') {n : Str} (h : (newGameProps P n).2 = .ok ()) :
    ValidMap (newGameProps P n).1 ∧ EffectiveSize (newGameProps P n).1 P.size := by
  unfold newGameProps
  constructor
  · refine andThen_fst _ _ _ (andThen_fst _ _ _ (andThen_fst _ _ _ (setRaw_valid hF _ _ validMap_nil) ?_) ?_) ?_ <;>
      (intro m hm; exact setRaw_valid hF _ _ hm)
  · have hand : ∀ (u : Upd) (f : PropMap → Upd), (u.andThen f).2 = .ok () → u.2 = .ok () ∧ u.andThen f = f u.1 := by
      intro u f hu
      unfold Upd.andThen at hu ⊢
      cases h2 : u.2 with
      | ok x => exact ⟨rfl, by simp⟩
      | error e => rw [h2] at hu; cases hu
    unfold newGameProps at h
    obtain ⟨h1, e1⟩ := hand _ _ h
    obtain ⟨h2, e2⟩ := hand _ _ h1
    rw [e1]
    apply setRaw_effective
    rw [e2]
    rw [e2] at h1
    have hz : ∀ m : PropMap, (setRaw P m ['S', 'Z'] (strInt P.size)).2 = .ok () → EffectiveSize (setRaw P m ['S', 'Z'] (strInt P.size)).1 P.size := by
      intro m hok
      unfold setRaw at hok ⊢
      split at hok
      · cases hok
      · rename_i a1
        split at hok
        · cases hok
        · rename_i a2
          rw [if_neg a1, if_neg a2]
          unfold setRawListUnchecked
          rw [if_neg (by simp)]
          unfold EffectiveSize
          rw [lookup_assign, if_pos rfl]
          exact parseInt_strInt _
    exact hz _ h1

theorem loadSize_iff {root : PropMap} {size : Int} : loadSize root = .ok size ↔ EffectiveSize root size := by
  unfold loadSize EffectiveSize
  rw [← find_eq_lookup]
  cases root.find ['S', 'Z'] with
  | none =>
    simp only
    constructor
    · intro h; cases h; rfl
    · intro h; rw [h]
  | some vs =>
    cases vs with
    | nil => simp [firstValue, bind, Except.bind]
    | cons v vs => simp [firstValue, bind, Except.bind]

theorem load_ok {L L' : Lib} {t : CTree} {override : Option Str} (h : L.load E F t override = .ok L') :
    ∃ root s ch size e P n h', t = .mk (root :: s) ch ∧ EffectiveSize root size ∧ 1 ≤ size ∧ size ≤ 26 ∧ P = Presenter.new size (E.codec n) F ∧
      loadEncoding root override = .ok e ∧ E.normalise e = some n ∧
      makeTree t.coarse (L.heap.newRoot L.games.length (loadRoot P n root override).1) L.heap.length = .ok h' ∧
      L' = { heap := h', games := L.games ++ [⟨P, n, L.heap.length⟩] } := by
  obtain ⟨sq, ch⟩ := t
  unfold Lib.load at h
  cases sq with
  | nil => simp [CTree.sequence] at h
  | cons root s =>
    simp only [CTree.sequence, bind, Except.bind] at h
    cases hsize : loadSize root with
    | error e => rw [hsize] at h; cases h
    | ok size =>
      rw [hsize] at h
      cases henc : loadEncoding root override with
      | error e => rw [henc] at h; cases h
      | ok e =>
        rw [henc] at h
        cases hpn : makePresenter E F size e with
        | error e => simp only [hpn] at h; cases h
        | ok pn =>
          obtain ⟨P, n⟩ := pn
          obtain ⟨b1, b2, b3, b4⟩ := makePresenter_ok hpn
          simp only [hpn] at h
          split at h
          · cases h
          · split at h
            · cases h
            · rename_i h' hh'
              cases h
              exact ⟨root, s, ch, size, e, P, n, h', rfl, loadSize_iff.1 hsize, b1, b2, b4, henc, b3, hh', rfl⟩

/-- The invariant holds in every session. -/
theorem session_inv (hF : ∀ q, ∀ c ∈ F.repr q, c ≠ ']' ∧ c ≠ '\\') {L : Lib} (hs : Session E F L) : LibInv F E L := by
  induction hs with
  | start => exact ⟨.start, by simp, by simp⟩
  | @step L L' _ hst ih =>
    cases hst with
    | @newGame _ size encoding h =>
      unfold Lib.newGame at h
      cases hp : makePresenter E F size encoding with
      | error e => rw [hp] at h; simp [bind, Except.bind] at h
      | ok pn =>
        obtain ⟨P, n⟩ := pn
        obtain ⟨b1, b2, b3, b4⟩ := makePresenter_ok hp
        rw [hp] at h
        simp only [bind, Except.bind] at h
        split at h
        · cases h
        · rename_i hu
          cases h
          have hPF : P.floats = F := by rw [b4]; rfl
          have hPs : P.size = size := by rw [b4]; rfl
          obtain ⟨c1, c2⟩ := newGameProps_ok (P := P) (n := n) (by rw [hPF]; exact hF) hu
          exact inv_game ih (newRoot_extends c1) (.step (e := .newGame L.games.length _) ih.edited (fresh_owner ih) rfl)
            (newRoot_get _ _ _) rfl rfl c2 (by omega) (by omega) (by rw [b4]; rfl) hPF ⟨_, b3⟩
    | @load _ t override hv h =>
      obtain ⟨root, s, ch, size, enc, P, n, h', rfl, a2, a3, a4, a5, a6', a6, a8, rfl⟩ := load_ok h
      generalize hu : (loadRoot P n root override).1 = u at a8
      have a7 := hu.symm
      have hPF : P.floats = F := by rw [a5]; rfl
      have hPs : P.size = size := by rw [a5]; rfl
      have hvr : ValidMap root := by cases hv with | mk _ h _ => exact h root (by simp)
      have hvu : ValidMap u ∧ EffectiveSize u P.size := by
        rw [a7]
        cases override with
        | none => exact ⟨hvr, by rw [hPs]; exact a2⟩
        | some _ => exact ⟨setRaw_valid (by rw [hPF]; exact hF) _ _ hvr, setRaw_effective _ _ (by rw [hPs]; exact a2)⟩
      have hx1 := newRoot_extends (L := L) hvu.1
      have hx2 : Extends (NewOk L.games.length) (L.heap.newRoot L.games.length u) h' := by
        refine extends_makeTreeLoop _ _ _ _ ?_ a8
        intro x hxm
        rw [List.mem_singleton] at hxm
        subst hxm
        refine ⟨by unfold Heap.newRoot; simp, ?_, by rw [ctree_coarse]; exact hv⟩
        rw [owner_of_get (newRoot_get _ _ _)]
      have hx := extends_trans (newOk_congr _) hx1 hx2
      obtain ⟨r', hr'⟩ : ∃ r', h'[L.heap.length]? = some r' := ⟨_, List.getElem?_eq_getElem (by
        have := hx2.1; unfold Heap.newRoot at this; simp at this; omega)⟩
      obtain ⟨r0, e1, e2, e3, e4⟩ := hx2.2.1 _ r' (by unfold Heap.newRoot; simp) hr'
      rw [newRoot_get] at e1
      cases e1
      exact inv_game ih hx (.step (e := .load L.games.length u _) ih.edited (fresh_owner ih) a8) hr' e3 (e4 rfl)
        (by rw [e2]; exact hvu.2) (by omega) (by omega) (by rw [a5]; rfl) hPF ⟨_, a6⟩
    | @newChild n index hn =>
      obtain ⟨r, hr⟩ := getElem?_of_lt hn
      have ho := (ih.nodes n r hr).2
      refine inv_heap ih ho (extends_newChild (newOk_congr _) _ _ _ _ ⟨validMap_nil, owner_of_get hr⟩) ?_
      exact .step (e := .newChild n [] index) ih.edited hn rfl
    | @delete n h hn hd =>
      obtain ⟨r, hr⟩ := getElem?_of_lt hn
      have ho := (ih.nodes n r hr).2
      refine inv_heap ih ho ?_ (.step (e := .delete n) ih.edited hn hd)
      unfold Heap.delete at hd
      split at hd
      · cases hd
      · split at hd
        · cases hd
          exact extends_setChildren _ _ _ _
        · cases hd
    | @reparent n p index h hn hp hd =>
      obtain ⟨r, hr⟩ := getElem?_of_lt hn
      have ho := (ih.nodes n r hr).2
      refine inv_heap ih ho ?_ (.step (e := .reparent n p index) ih.edited ⟨hn, hp⟩ hd)
      unfold Heap.reparent at hd
      split at hd
      · cases hd
      · split at hd
        · cases hd
        · split at hd
          · cases hd
          · rename_i q hq
            split at hd
            · cases hd
              refine extends_trans (newOk_congr _) (extends_trans (newOk_congr _) (extends_setChildren _ _ _ _) (extends_setParent (p := q) ?_))
                (extends_setChildren _ _ _ _)
              rw [sc_parent]; exact hq
            · cases hd
    | @update n g op hg hn =>
      obtain ⟨r, hr⟩ := getElem?_of_lt hn
      have hed : Edited (L.heap.modify n (fun r => { r with props := (op.apply g.presenter r.props).1 })) := by
        refine .step (e := .setProps n (op.apply g.presenter r.props).1) ih.edited hn ?_
        show Except.ok _ = Except.ok _
        congr 1
        apply List.ext_getElem?
        intro i
        rw [List.getElem?_modify, List.getElem?_modify]
        by_cases hi : n = i
        · subst hi; rw [hr]; simp
        · simp [hi]
      have hget : ∀ (i : Nat) r', (L.heap.modify n (fun r => { r with props := (op.apply g.presenter r.props).1 }))[i]? = some r' →
          ∃ r0, L.heap[i]? = some r0 ∧ r'.owner = r0.owner ∧ r'.parent = r0.parent ∧
            r'.props = if n = i then (op.apply g.presenter r0.props).1 else r0.props := by
        intro i r' e
        rw [List.getElem?_modify] at e
        cases hr0 : L.heap[i]? with
        | none => rw [hr0] at e; simp at e
        | some r0 =>
          rw [hr0] at e
          simp only [Option.map_eq_map, Option.map_some, Option.some.injEq] at e
          refine ⟨r0, rfl, ?_⟩
          split at e
          · subst e; rename_i hni; rw [if_pos hni]; exact ⟨rfl, rfl, rfl⟩
          · subst e; rename_i hni; rw [if_neg hni]; exact ⟨rfl, rfl, rfl⟩
      obtain ⟨_, _, _, _, _, _, _, _, g8, _⟩ := ih.games _ g hg
      refine ⟨hed, ?_, ?_⟩
      · intro i r' e
        obtain ⟨r0, e1, e2, e3, e4⟩ := hget i r' e
        obtain ⟨v1, v2⟩ := ih.nodes i r0 e1
        rw [e2, e4]
        refine ⟨?_, v2⟩
        split
        · exact C51_valid _ (by rw [g8]; exact hF) _ v1 op
        · exact v1
      · intro o g' hg'
        obtain ⟨r1, a1, a2, a3, a4, a5⟩ := ih.games o g' hg'
        have hlt : g'.root < L.heap.length := (List.getElem?_eq_some_iff.1 a1).1
        obtain ⟨r', hr'⟩ : ∃ r', (L.heap.modify n (fun r => { r with props := (op.apply g.presenter r.props).1 }))[g'.root]? = some r' :=
          ⟨_, List.getElem?_eq_getElem (by rw [List.length_modify]; exact hlt)⟩
        obtain ⟨r0, e1, e2, e3, e4⟩ := hget _ r' hr'
        rw [a1] at e1
        cases e1
        refine ⟨r', hr', by rw [e2, a2], by rw [e3, a3], ?_, a5⟩
        rw [e4]
        split
        · rename_i hni
          subst hni
          rw [owner_of_get a1, a2] at hg
          have : L.games[o]? = some g' := hg'
          rw [this] at hg
          cases hg
          exact C51_size _ _ a4 op
        · exact a4
    | @configure o g P hg h1 h2 h3 =>
      refine ⟨ih.edited, ?_, ?_⟩
      · intro i r e
        simp only [List.length_set]
        exact ih.nodes i r e
      · intro o' g' hg'
        simp only [List.getElem?_set] at hg'
        split at hg'
        · rename_i ho
          subst ho
          split at hg'
          · simp only [Option.some.injEq] at hg'
            subst hg'
            have := ih.games o g hg
            simp only [h1, h2, h3]
            exact this
          · cases hg'
        · exact ih.games o' g' hg'

end Gomill.Sgf
