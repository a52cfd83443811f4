import Mathlib.Data.List.Forall2
import Verif.Model.SgfRecord
import Verif.Props.SgfGame
import Verif.Props.SgfNode
/-
Lemmas about recording a game in an Sgf_game: the effect of the edits on the main sequence.
-/
namespace Gomill.Sgf

open Py

variable {E : Encodings} {F : Floats}

/-! ### The ids of the main sequence -/

theorem path_unique {h : Heap PropMap} {l : List Nat} (h1 : FirstChildPath h l) : ∀ {l' : List Nat}, FirstChildPath h l' →
    l.head? = l'.head? → l = l' := by
  induction h1 with
  | leaf e1 =>
    intro l' h2 e
    cases h2 with
    | leaf _ => simpa using e
    | step e2 _ =>
      simp only [List.head?_cons, Option.some.injEq] at e
      subst e
      rw [e1] at e2
      cases e2
  | step e1 _ ih =>
    intro l' h2 e
    cases h2 with
    | leaf e2 =>
      simp only [List.head?_cons, Option.some.injEq] at e
      subst e
      rw [e2] at e1
      cases e1
    | step e2 h2 =>
      simp only [List.head?_cons, Option.some.injEq] at e
      subst e
      rw [e1] at e2
      cases e2
      rw [ih h2 rfl]

theorem path_congr {h h' : Heap PropMap} {l : List Nat} (h1 : FirstChildPath h l) (hc : ∀ i ∈ l, h'.children i = h.children i) :
    FirstChildPath h' l := by
  induction h1 with
  | leaf e => exact .leaf (by rw [hc _ (by simp), e])
  | step e _ ih => exact .step (by rw [hc _ (by simp), e]) (ih (fun i hi => hc i (List.mem_cons_of_mem _ hi)))

/-- All the nodes of the path satisfy what the first does, if it is inherited by children. -/
theorem path_all {h : Heap PropMap} {l : List Nat} (h1 : FirstChildPath h l) {Q : Nat → Prop}
    (hq : ∀ i c, Q i → c ∈ h.children i → Q c) : (∀ i, l.head? = some i → Q i) → ∀ i ∈ l, Q i := by
  induction h1 with
  | leaf _ => intro h i hi; exact h i (by simp at hi; simp [hi])
  | @step i c l e _ ih =>
    intro h j hj
    have hi := h i rfl
    rcases List.mem_cons.1 hj with rfl | hj
    · exact hi
    · refine ih ?_ j hj
      intro k hk
      simp only [List.head?_cons, Option.some.injEq] at hk
      subst hk
      exact hq _ _ hi (List.mem_of_mem_head? e)

theorem path_extend {h h' : Heap PropMap} {l : List Nat} {x n : Nat} (h1 : FirstChildPath h l) (hlast : l.getLast? = some n)
    (hc : ∀ i ∈ l, i ≠ n → h'.children i = h.children i) (hn : h'.children n = [x]) (hx : h'.children x = []) : FirstChildPath h' (l ++ [x]) := by
  induction h1 with
  | @leaf i e =>
    simp at hlast
    subst hlast
    exact .step (by rw [hn]; rfl) (.leaf hx)
  | @step i c l e h2 ih =>
    have hl : (c :: l).getLast? = some n := by simpa using hlast
    by_cases hi : i = n
    · subst hi
      -- a leaf has no children, in h
      exfalso
      have : h.children i = [] := by
        clear ih hlast hc
        generalize hk : c :: l = k at h2 hl
        clear hk e
        induction h2 with
        | leaf e => simp at hl; subst hl; exact e
        | step _ _ ih => exact ih (by simpa using hl)
      rw [this] at e
      cases e
    · refine .step ?_ (ih hl (fun j hj => hc j (List.mem_cons_of_mem _ hj)))
      rw [hc i (by simp) hi, e]

theorem newChild_children {h : Heap PropMap} {n : Nat} (hn : n < h.length) (p : PropMap) (i : Nat) :
    (h.newChild n p none).children i = if i = h.length then [] else if n = i then h.children i ++ [h.length] else h.children i := by
  unfold Heap.newChild Heap.newNode
  rw [sc_children, (app_fields i).1]
  simp only [List.length_append, List.length_cons, List.length_nil]
  by_cases h1 : i = h.length
  · subst h1; simp; omega
  · by_cases h2 : n = i
    · subst h2; simp [h1, placeChild]; omega
    · simp [h1, h2]

theorem newChild_props {h : Heap PropMap} {n : Nat} (i : Nat) :
    (h.newChild n [] none).props i = h.props i := by
  unfold Heap.newChild Heap.newNode Heap.props
  rw [setChildren_get]
  by_cases h1 : i < h.length
  · rw [List.getElem?_append_left h1]
    cases hr : h[i]? with
    | none => rfl
    | some r => simp only [Option.map_some]; split <;> rfl
  · rw [List.getElem?_append_right (by omega), List.getElem?_eq_none (l := h) (by omega)]
    by_cases h2 : i = h.length
    · subst h2; simp; split <;> rfl
    · rw [List.getElem?_eq_none (by simp; omega)]
      rfl

theorem mem_main_lt {h : Heap PropMap} (he : Edited h) {root : Nat} (hr : root < h.length) : ∀ i ∈ getMainSequence h root, i < h.length := by
  obtain ⟨h1, h2, _⟩ := C23_navigation he root hr
  have hf := isForest_edited he
  refine path_all h1 (fun i c _ hc => (hf.child i c hc).1) ?_
  intro i hi
  rw [h2] at hi
  cases hi
  exact hr

theorem main_owner {h : Heap PropMap} (he : Edited h) {root : Nat} (hr : root < h.length) : ∀ i ∈ getMainSequence h root, h.owner i = h.owner root := by
  obtain ⟨h1, h2, _⟩ := C23_navigation he root hr
  have hf := isForest_edited he
  refine path_all h1 (fun i c hi hc => by rw [← hi, (hf.parent c i (hf.child i c hc).2).2]) ?_
  intro i hi
  rw [h2] at hi
  cases hi
  rfl

theorem main_tail_ne_root {h : Heap PropMap} (he : Edited h) {root : Nat} (hr : root < h.length) (hp : h.parent root = none) :
    root ∉ (getMainSequence h root).tail := by
  obtain ⟨h1, h2, _⟩ := C23_navigation he root hr
  have hf := isForest_edited he
  generalize hl : getMainSequence h root = l at *
  cases h1 with
  | leaf _ => simp
  | @step i c l e h3 =>
    simp only [List.tail_cons]
    have : ∀ j ∈ c :: l, ∃ q, h.parent j = some q := by
      refine path_all h3 (fun i c _ hc => ⟨i, (hf.child i c hc).2⟩) ?_
      intro j hj
      simp only [List.head?_cons, Option.some.injEq] at hj
      subst hj
      exact ⟨i, (hf.child _ _ (List.mem_of_mem_head? e)).2⟩
    intro hm
    obtain ⟨q, hq⟩ := this root hm
    rw [hp] at hq
    cases hq

theorem last_lt {h : Heap PropMap} (he : Edited h) {root : Nat} (hr : root < h.length) : getLastNode h root < h.length := by
  obtain ⟨_, _, h3, _⟩ := C23_navigation he root hr
  exact mem_main_lt he hr _ (List.mem_of_getLast? h3)

theorem last_leaf {h : Heap PropMap} (he : Edited h) {root : Nat} (hr : root < h.length) : h.children (getLastNode h root) = [] := by
  obtain ⟨h1, _, h3, _⟩ := C23_navigation he root hr
  generalize getMainSequence h root = l at h1 h3
  generalize getLastNode h root = n at h3
  induction h1 with
  | leaf e => simp at h3; subst h3; exact e
  | step _ _ ih => exact ih (by simpa using h3)

/-- extend_main_sequence appends the new node to the main sequence. -/
theorem main_extend {h : Heap PropMap} (he : Edited h) {root : Nat} (hr : root < h.length) :
    getMainSequence (h.newChild (getLastNode h root) [] none) root = getMainSequence h root ++ [h.length] := by
  obtain ⟨h1, h2, h3, _⟩ := C23_navigation he root hr
  have hl := last_lt he hr
  have he' : Edited (h.newChild (getLastNode h root) [] none) :=
    .step (e := .newChild (getLastNode h root) [] none) he hl rfl
  obtain ⟨g1, g2, _, _⟩ := C23_navigation he' root (by rw [newChild_length]; omega)
  refine path_unique g1 (path_extend (n := getLastNode h root) h1 h3 ?_ ?_ ?_) ?_
  · intro i hi hne
    have := mem_main_lt he hr i hi
    rw [newChild_children hl, if_neg (by omega), if_neg (fun e => hne e.symm)]
  · rw [newChild_children hl, if_neg (by omega), if_pos rfl, last_leaf he hr]
    rfl
  · rw [newChild_children hl, if_pos rfl]
  · rw [g2]
    cases hm : getMainSequence h root with
    | nil => rw [hm] at h2; cases h2
    | cons a l => rw [hm] at h2; simpa using h2.symm

/-- Adding a child to a node of another game doesn't change the main sequence. -/
theorem main_extend_other {h : Heap PropMap} (he : Edited h) {root n : Nat} (hr : root < h.length) (hn : n < h.length)
    (ho : h.owner n ≠ h.owner root) : getMainSequence (h.newChild n [] none) root = getMainSequence h root := by
  obtain ⟨h1, h2, _, _⟩ := C23_navigation he root hr
  have he' : Edited (h.newChild n [] none) := .step (e := .newChild n [] none) he hn rfl
  obtain ⟨g1, g2, _, _⟩ := C23_navigation he' root (by rw [newChild_length]; omega)
  refine (path_unique (path_congr h1 ?_) g1 (by rw [g2, h2])).symm
  intro i hi
  have h3 := mem_main_lt he hr i hi
  have h4 := main_owner he hr i hi
  rw [newChild_children hn, if_neg (by omega), if_neg]
  rintro rfl
  exact ho h4

/-! ### Changing properties -/

theorem setProps_children (h : Heap PropMap) (n : Nat) (m : PropMap) (i : Nat) :
    Heap.children (h.modify n (fun r => { r with props := m })) i = h.children i := by
  unfold Heap.children
  rw [List.getElem?_modify]
  cases h[i]? <;> simp
  split <;> rfl

theorem setProps_owner (h : Heap PropMap) (n : Nat) (m : PropMap) (i : Nat) :
    Heap.owner (h.modify n (fun r => { r with props := m })) i = h.owner i := by
  unfold Heap.owner
  rw [List.getElem?_modify]
  cases h[i]? <;> simp
  split <;> rfl

theorem firstChildren_congr {h h' : Heap PropMap} (hc : ∀ i, h'.children i = h.children i) : ∀ f n, firstChildren h' f n = firstChildren h f n
  | 0, _ => rfl
  | f+1, n => by
    rw [firstChildren, firstChildren, hc n]
    cases h.children n with
    | nil => rfl
    | cons c cs => simp only; rw [firstChildren_congr hc f c]

theorem main_setProps (h : Heap PropMap) (n : Nat) (m : PropMap) (root : Nat) :
    getMainSequence (h.modify n (fun r => { r with props := m })) root = getMainSequence h root := by
  unfold getMainSequence
  rw [List.length_modify, firstChildren_congr (setProps_children h n m)]

theorem lastNode_setProps (h : Heap PropMap) (n : Nat) (m : PropMap) (root : Nat) :
    getLastNode (h.modify n (fun r => { r with props := m })) root = getLastNode h root := by
  unfold getLastNode
  rw [List.length_modify]
  have : ∀ f k, lastNodeLoop (h.modify n (fun r => { r with props := m })) f k = lastNodeLoop h f k := by
    intro f
    induction f with
    | zero => intro k; rfl
    | succ f ih =>
      intro k
      rw [lastNodeLoop, lastNodeLoop, setProps_children]
      cases h.children k with
      | nil => rfl
      | cons c cs => exact ih c
  exact this _ _

theorem setProps_props {h : Heap PropMap} {n : Nat} (hn : n < h.length) (m : PropMap) (i : Nat) :
    Heap.props (h.modify n (fun r => { r with props := m })) i = if i = n then m else h.props i := by
  unfold Heap.props
  rw [List.getElem?_modify]
  by_cases hi : i = n
  · subst hi
    obtain ⟨r, hr⟩ := getElem?_of_lt hn
    rw [hr]
    simp
  · have hi' : ¬ n = i := fun e => hi e.symm
    rw [if_neg hi]
    cases h[i]? <;> simp [hi']

/-- The properties that matter to get_setup_and_moves. -/
def moveKeys : List Str := [['B'], ['W'], ['A', 'B'], ['A', 'W'], ['A', 'E']]

/-- Two property maps which are the same for get_setup_and_moves. -/
def SameMoves (m m' : PropMap) : Prop := ∀ k ∈ moveKeys, m.find k = m'.find k

theorem SameMoves.refl (m : PropMap) : SameMoves m m := fun _ _ => rfl

theorem sameMoves_of_same {m m' : PropMap} (h : SameMap m m') : SameMoves m m' := by
  intro k _
  rw [find_eq_lookup, find_eq_lookup, h]

theorem hasSetup_congr {m m' : PropMap} (h : SameMoves m m') : hasSetupStones m = hasSetupStones m' := by
  unfold hasSetupStones PropMap.has
  rw [h ['A', 'B'] (by decide), h ['A', 'W'] (by decide), h ['A', 'E'] (by decide)]

theorem rawMove_congr {m m' : PropMap} (h : SameMoves m m') : getRawMove m = getRawMove m' := by
  unfold getRawMove
  rw [h ['B'] (by decide), h ['W'] (by decide)]

theorem setupStones_congr {m m' : PropMap} (h : SameMoves m m') (size : Int) : getSetupStones m size = getSetupStones m' size := by
  unfold getSetupStones
  rw [getPointList_congr (h ['A', 'B'] (by decide)), getPointList_congr (h ['A', 'W'] (by decide)), getPointList_congr (h ['A', 'E'] (by decide))]

theorem collectMoves_congr (size : Int) {l l' : List PropMap} (h : List.Forall₂ SameMoves l l') : collectMoves size l = collectMoves size l' := by
  induction h with
  | nil => rfl
  | cons h1 _ ih =>
    unfold collectMoves
    rw [hasSetup_congr h1, rawMove_congr h1, ih]

theorem getSetupAndMoves_congr (size : Int) {l l' : List PropMap} (h : List.Forall₂ SameMoves l l') :
    getSetupAndMoves size l = getSetupAndMoves size l' := by
  cases h with
  | nil => rfl
  | cons h1 h2 =>
    unfold getSetupAndMoves
    simp only [setupStones_congr h1, rawMove_congr h1, collectMoves_congr size h2, collectMoves_congr size (List.Forall₂.cons h1 h2)]

/-! ### Appending to the main sequence -/

theorem except_bind_ok {α : Type} (x : Except Exc α) : (x.bind fun a => .ok a) = x := by cases x <;> rfl

theorem collectMoves_append (size : Int) (l l' : List PropMap) :
    collectMoves size (l ++ l') = (collectMoves size l).bind (fun a => (collectMoves size l').map (fun b => a ++ b)) := by
  induction l with
  | nil =>
    simp only [List.nil_append, collectMoves, Except.bind]
    cases collectMoves size l' <;> rfl
  | cons m l ih =>
    rw [List.cons_append, collectMoves, collectMoves]
    cases hasSetupStones m with
    | true => rfl
    | false =>
      simp only [Bool.false_eq_true, if_false, bind, Except.bind, pure, Except.pure]
      cases getRawMove m with
      | error e => rfl
      | ok v =>
        cases v with
        | none => simp only [ih]; rfl
        | some cr =>
          simp only
          cases interpretGoPoint cr.2 size with
          | error e => rfl
          | ok mv =>
            simp only [ih]
            cases collectMoves size l with
            | error e => rfl
            | ok a =>
              simp only [Except.bind]
              cases collectMoves size l' <;> rfl

theorem getSetupAndMoves_append (size : Int) (root : PropMap) (l l' : List PropMap) :
    getSetupAndMoves size (root :: l ++ l') =
      (getSetupAndMoves size (root :: l)).bind (fun a => (collectMoves size l').map (fun b => (a.1, a.2 ++ b))) := by
  have hc := collectMoves_append size (root :: l) l'
  have hc' := collectMoves_append size l l'
  rw [List.cons_append] at hc ⊢
  unfold getSetupAndMoves
  simp only [hc, hc', bind, Except.bind, pure, Except.pure, throw, throwThe, MonadExceptOf.throw]
  cases Board.init size.toNat with
  | error e => rfl
  | ok b =>
    simp only
    cases getSetupStones root size with
    | error e => rfl
    | ok s =>
      simp only
      split
      · cases b.applySetup s.1 s.2.1 s.2.2 with
        | error e => rfl
        | ok r =>
          simp only
          cases r.1 with
          | false => rfl
          | true =>
            simp only [Bool.not_true, Bool.false_eq_true, if_false]
            cases getRawMove root with
            | error e => rfl
            | ok v =>
              cases v with
              | some _ => rfl
              | none =>
                simp only [Option.isSome_none, Bool.false_eq_true, if_false]
                cases collectMoves size l with
                | error e => rfl
                | ok a => simp only; cases collectMoves size l' <;> rfl
      · cases collectMoves size (root :: l) with
        | error e => rfl
        | ok a => simp only; cases collectMoves size l' <;> rfl

/-! ### Sessions -/

theorem game_root (hF : ∀ q, ∀ c ∈ F.repr q, c ≠ ']' ∧ c ≠ '\\') {L : Lib} (hs : Session E F L) {o : Nat} {g : GameRec} (hg : L.games[o]? = some g) :
    g.root < L.heap.length ∧ L.heap.owner g.root = o ∧ L.heap.parent g.root = none ∧ 1 ≤ g.presenter.size ∧ g.presenter.size ≤ 26 := by
  obtain ⟨r, a1, a2, a3, _, a5, a6, _⟩ := (session_inv hF hs).games o g hg
  exact ⟨(List.getElem?_eq_some_iff.1 a1).1, by rw [owner_of_get a1, a2], by rw [parent_of_get a1, a3], a5, a6⟩

/-- What a call of a node method does. -/
theorem update_ok {L L' : Lib} {g : GameRec} {n : Nat} {f : Presenter → PropMap → Upd} (h : L.update g n f = .ok L') :
    (f g.presenter (L.heap.props n)).2 = .ok () ∧ L'.games = L.games ∧
    L'.heap = L.heap.modify n (fun r => { r with props := (f g.presenter (L.heap.props n)).1 }) := by
  unfold Lib.update at h
  cases hf : f g.presenter (L.heap.props n) with
  | mk m x =>
    rw [hf] at h
    cases x with
    | error e => cases h
    | ok u => cases h; exact ⟨rfl, rfl, rfl⟩

theorem update_eq {L : Lib} {g : GameRec} {n : Nat} {f : Presenter → PropMap → Upd} (h : (f g.presenter (L.heap.props n)).2 = .ok ()) :
    L.update g n f = .ok { L with heap := L.heap.modify n (fun r => { r with props := (f g.presenter (L.heap.props n)).1 }) } := by
  unfold Lib.update
  cases hf : f g.presenter (L.heap.props n) with
  | mk m x =>
    rw [hf] at h
    cases x with
    | error e => cases h
    | ok u => rfl

theorem modify_congr {h : Heap PropMap} {n : Nat} (f : PropMap → PropMap) :
    h.modify n (fun r => { r with props := f (h.props n) }) = h.modify n (fun r => { r with props := f r.props }) := by
  apply List.ext_getElem?
  intro i
  rw [List.getElem?_modify, List.getElem?_modify]
  by_cases hi : n = i
  · subst hi
    cases hr : h[n]? with
    | none => rfl
    | some r =>
      have : h.props n = r.props := by unfold Heap.props; rw [hr]
      simp [this]
  · cases h[i]? <;> simp [hi]

theorem update_session {L L' : Lib} (hs : Session E F L) {o : Nat} {g : GameRec} (hg : L.games[o]? = some g) {n : Nat} (hn : n < L.heap.length)
    (ho : L.heap.owner n = o) {f : Presenter → PropMap → Upd} (op : NodeOp) (hf : ∀ P m, f P m = op.apply P m) (h : L.update g n f = .ok L') :
    Session E F L' := by
  obtain ⟨_, h2, h3⟩ := update_ok h
  have := Session.step hs (LibStep.update (n := n) (g := g) (op := op) (by rw [ho]; exact hg) hn)
  rw [← modify_congr (fun m => (op.apply g.presenter m).1)] at this
  rw [hf] at h3
  have e : L' = { L with heap := L.heap.modify n (fun r => { r with props := (op.apply g.presenter (L.heap.props n)).1 }) } := by
    cases L'
    simp only at h2 h3
    rw [h2, h3]
  rw [e]
  exact this

theorem mainSequence_update {L L' : Lib} {g g' : GameRec} {n : Nat} (hn : n < L.heap.length) {f : Presenter → PropMap → Upd}
    (h : L.update g n f = .ok L') :
    L'.mainSequence g' = (getMainSequence L.heap g'.root).map (fun i => if i = n then (f g.presenter (L.heap.props n)).1 else L.heap.props i) := by
  obtain ⟨_, _, h3⟩ := update_ok h
  unfold Lib.mainSequence
  rw [h3, main_setProps]
  refine List.map_congr_left ?_
  intro i _
  exact setProps_props hn _ i

theorem mainSequence_cons (L : Lib) (g : GameRec) :
    L.mainSequence g = L.heap.props g.root :: (getMainSequence L.heap g.root).tail.map L.heap.props := rfl

/-- Updating the root changes the head of the main sequence. -/
theorem mainSequence_root (hF : ∀ q, ∀ c ∈ F.repr q, c ≠ ']' ∧ c ≠ '\\') {L L' : Lib} (hs : Session E F L) {o : Nat} {g : GameRec} (hg : L.games[o]? = some g)
    {f : Presenter → PropMap → Upd} (h : L.update g g.root f = .ok L') :
    L'.mainSequence g = (f g.presenter (L.heap.props g.root)).1 :: (L.mainSequence g).tail := by
  obtain ⟨h1, h2, h3, _⟩ := game_root hF hs hg
  have hi := session_inv hF hs
  have ht := main_tail_ne_root hi.edited h1 h3
  rw [mainSequence_update h1 h, mainSequence_cons]
  show List.map _ (g.root :: (getMainSequence L.heap g.root).tail) = _
  rw [List.map_cons, if_pos rfl, List.tail_cons]
  congr 1
  refine List.map_congr_left ?_
  intro i hi
  rw [if_neg]
  rintro rfl
  exact ht hi

/-- Updating a node of another game doesn't change the main sequence. -/
theorem mainSequence_other (hF : ∀ q, ∀ c ∈ F.repr q, c ≠ ']' ∧ c ≠ '\\') {L L' : Lib} (hs : Session E F L) {o : Nat} {g g' : GameRec}
    (hg' : L.games[o]? = some g') {n : Nat} (hn : n < L.heap.length) (ho : L.heap.owner n ≠ o) {f : Presenter → PropMap → Upd} (h : L.update g n f = .ok L') :
    L'.mainSequence g' = L.mainSequence g' := by
  obtain ⟨h1, h2, h3, _⟩ := game_root hF hs hg'
  have hi := session_inv hF hs
  rw [mainSequence_update hn h]
  unfold Lib.mainSequence
  refine List.map_congr_left ?_
  intro i hi'
  rw [if_neg]
  rintro rfl
  have := main_owner hi.edited h1 i hi'
  rw [h2] at this
  exact ho this

/-- A change of other properties isn't seen by get_setup_and_moves. -/
theorem mainSequence_sameMoves {L L' : Lib} {g g' : GameRec} {n : Nat} (hn : n < L.heap.length) {f : Presenter → PropMap → Upd}
    (h : L.update g n f = .ok L') (hm : SameMoves (L.heap.props n) (f g.presenter (L.heap.props n)).1) :
    List.Forall₂ SameMoves (L.mainSequence g') (L'.mainSequence g') := by
  rw [mainSequence_update hn h]
  unfold Lib.mainSequence
  rw [List.forall₂_map_left_iff, List.forall₂_map_right_iff]
  refine List.forall₂_same.2 ?_
  intro i _
  by_cases hi : i = n
  · subst hi; rw [if_pos rfl]; exact hm
  · rw [if_neg hi]; exact SameMoves.refl _

/-- extend_main_sequence. -/
theorem extend_spec (hF : ∀ q, ∀ c ∈ F.repr q, c ≠ ']' ∧ c ≠ '\\') {L : Lib} (hs : Session E F L) {o : Nat} {g : GameRec} (hg : L.games[o]? = some g) :
    Session E F (L.extendMainSequence g) ∧ (L.extendMainSequence g).games = L.games ∧
    (L.extendMainSequence g).heap.length = L.heap.length + 1 ∧
    (L.extendMainSequence g).heap.owner L.heap.length = o ∧
    (∀ i, (L.extendMainSequence g).heap.props i = L.heap.props i) ∧
    getMainSequence (L.extendMainSequence g).heap g.root = getMainSequence L.heap g.root ++ [L.heap.length] ∧
    ∀ o' g', L.games[o']? = some g' → o' ≠ o → getMainSequence (L.extendMainSequence g).heap g'.root = getMainSequence L.heap g'.root := by
  obtain ⟨h1, h2, h3, _⟩ := game_root hF hs hg
  have hi := session_inv hF hs
  have hl := last_lt hi.edited h1
  have hlo : L.heap.owner (getLastNode L.heap g.root) = o := by
    obtain ⟨_, _, e, _⟩ := C23_navigation hi.edited g.root h1
    rw [main_owner hi.edited h1 _ (List.mem_of_getLast? e), h2]
  refine ⟨.step hs (.newChild hl), rfl, newChild_length _ _ _ _, ?_, newChild_props, main_extend hi.edited h1, ?_⟩
  · show Heap.owner (Heap.newChild _ _ _ _) _ = o
    unfold Heap.newChild Heap.newNode
    rw [sc_owner, (app_fields _).2.2, if_pos rfl, hlo]
  · intro o' g' hg' hne
    obtain ⟨k1, k2, _⟩ := game_root hF hs hg'
    refine main_extend_other hi.edited k1 hl ?_
    rw [hlo, k2]
    exact fun e => hne e.symm

end Gomill.Sgf
