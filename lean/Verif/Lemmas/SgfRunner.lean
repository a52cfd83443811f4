import Verif.Props.SgfRecord
/-
Lemmas for C55 and C56: a program that builds one SGF game, step by step.
-/
namespace Gomill.Sgf

open Py

variable {E : Encodings} {F : Floats}

/-- After some steps from `L0`, there is one more game, `g`, with the main sequence `seq`; the others haven't changed. -/
structure At (E : Encodings) (F : Floats) (L0 L : Lib) (g : GameRec) (seq : List PropMap) : Prop where
  session : Session E F L
  games : L.games = L0.games ++ [g]
  seq : L.mainSequence g = seq
  frame : ∀ (o' : Nat) (g' : GameRec), L0.games[o']? = some g' → L.mainSequence g' = L0.mainSequence g'

theorem At.get {L0 L : Lib} {g : GameRec} {seq : List PropMap} (h : At E F L0 L g seq) : L.games[L0.games.length]? = some g := by
  rw [h.games, List.getElem?_append_right (Nat.le_refl _)]; simp

theorem At.other {L0 L : Lib} {g : GameRec} {seq : List PropMap} (h : At E F L0 L g seq) {o' : Nat} {g' : GameRec}
    (hg : L0.games[o']? = some g') : L.games[o']? = some g' ∧ o' ≠ L0.games.length := by
  have := (List.getElem?_eq_some_iff.1 hg).1
  exact ⟨by rw [h.games, List.getElem?_append_left this, hg], by omega⟩

theorem At.root_props {L0 L : Lib} {g : GameRec} {m : PropMap} {seq : List PropMap} (h : At E F L0 L g (m :: seq)) : L.heap.props g.root = m := by
  have := h.seq
  rw [mainSequence_cons] at this
  exact (List.cons.inj this).1

/-- An operation on the root node. -/
theorem At.root (hF : ∀ q, ∀ c ∈ F.repr q, c ≠ ']' ∧ c ≠ '\\') {L0 L : Lib} {g : GameRec} {m : PropMap} {seq : List PropMap}
    (h : At E F L0 L g (m :: seq)) (op : NodeOp) (hok : (op.apply g.presenter m).2 = .ok ()) :
    ∃ L', L.update g g.root (fun P m => op.apply P m) = .ok L' ∧ At E F L0 L' g ((op.apply g.presenter m).1 :: seq) := by
  have hm := h.root_props
  obtain ⟨a1, a2, a3, _⟩ := game_root hF h.session h.get
  have hu := update_eq (L := L) (g := g) (n := g.root) (f := fun P m => op.apply P m) (by rw [hm]; exact hok)
  refine ⟨_, hu, update_session h.session h.get a1 a2 op (fun _ _ => rfl) hu, h.games, ?_, ?_⟩
  · rw [mainSequence_root hF h.session h.get hu, h.seq, hm]; rfl
  · intro o' g' hg'
    obtain ⟨b1, b2⟩ := h.other hg'
    rw [mainSequence_other hF h.session b1 a1 (by rw [a2]; exact fun e => b2 e.symm) hu]
    exact h.frame o' g' hg'

/-- Only the last node of a path has no children. -/
theorem path_last_new {h : Heap PropMap} {l : List Nat} (h1 : FirstChildPath h l) : ∀ {l' : List Nat} {x : Nat}, l = l' ++ [x] → x ∉ l' := by
  have hch : ∀ l, FirstChildPath h l → ∀ l' x, l = l' ++ [x] → h.children x = [] ∧ ∀ i ∈ l', h.children i ≠ [] := by
    intro l h1
    induction h1 with
    | leaf e =>
      intro l' x hx
      cases l' with
      | nil => simp at hx; subst hx; exact ⟨e, by simp⟩
      | cons a l' => simp at hx
    | @step i c l e _ ih =>
      intro l' x hx
      cases l' with
      | nil => simp at hx
      | cons a l' =>
        simp only [List.cons_append, List.cons.injEq] at hx
        obtain ⟨rfl, hx⟩ := hx
        obtain ⟨b1, b2⟩ := ih l' x hx
        refine ⟨b1, ?_⟩
        intro j hj
        rcases List.mem_cons.1 hj with rfl | hj
        · intro h0; rw [h0] at e; cases e
        · exact b2 j hj
  intro l' x hx hmem
  obtain ⟨b1, b2⟩ := hch l h1 l' x hx
  exact b2 x hmem b1

/-- An operation on the last node. -/
theorem At.last (hF : ∀ q, ∀ c ∈ F.repr q, c ≠ ']' ∧ c ≠ '\\') {L0 L : Lib} {g : GameRec} {m : PropMap} {seq : List PropMap}
    (h : At E F L0 L g (seq ++ [m])) (op : NodeOp) (hok : (op.apply g.presenter m).2 = .ok ()) :
    ∃ L', L.update g (getLastNode L.heap g.root) (fun P m => op.apply P m) = .ok L' ∧
      At E F L0 L' g (seq ++ [(op.apply g.presenter m).1]) := by
  obtain ⟨a1, a2, a3, _⟩ := game_root hF h.session h.get
  have hed := (session_inv hF h.session).edited
  obtain ⟨p1, p2, p3, _⟩ := C23_navigation hed g.root a1
  have hlt := last_lt hed a1
  have hown : L.heap.owner (getLastNode L.heap g.root) = L0.games.length := by
    rw [main_owner hed a1 _ (List.mem_of_getLast? p3), a2]
  obtain ⟨l', hl'⟩ : ∃ l', getMainSequence L.heap g.root = l' ++ [getLastNode L.heap g.root] := by
    obtain ⟨l', hl'⟩ := List.getLast?_eq_some_iff.1 p3
    exact ⟨l', hl'⟩
  have hnew := path_last_new p1 hl'
  have hseq := h.seq
  unfold Lib.mainSequence at hseq
  rw [hl', List.map_append, List.map_singleton] at hseq
  have hseq' := List.append_inj' hseq rfl
  obtain ⟨q1, q2⟩ := hseq'
  simp only [List.cons.injEq, and_true] at q2
  have hu := update_eq (L := L) (g := g) (n := getLastNode L.heap g.root) (f := fun P m => op.apply P m) (by rw [q2]; exact hok)
  refine ⟨_, hu, update_session h.session h.get hlt hown op (fun _ _ => rfl) hu, h.games, ?_, ?_⟩
  · rw [mainSequence_update hlt hu, hl', List.map_append, List.map_singleton, if_pos rfl, q2]
    congr 1
    rw [← q1]
    refine List.map_congr_left ?_
    intro i hi
    rw [if_neg]
    rintro rfl
    exact hnew hi
  · intro o' g' hg'
    obtain ⟨b1, b2⟩ := h.other hg'
    rw [mainSequence_other hF h.session b1 hlt (by rw [hown]; exact fun e => b2 e.symm) hu]
    exact h.frame o' g' hg'

/-- Adding a move. -/
theorem At.addMove (hF : ∀ q, ∀ c ∈ F.repr q, c ≠ ']' ∧ c ≠ '\\') {L0 L : Lib} {g : GameRec} {seq : List PropMap}
    (h : At E F L0 L g seq) (c : Colour) (mv : Option Pt) (hok : (setMove g.presenter [] c mv).2 = .ok ()) :
    ∃ L', L.addMove g c mv = .ok L' ∧ At E F L0 L' g (seq ++ [(setMove g.presenter [] c mv).1]) ∧
      getLastNode L'.heap g.root = L.heap.length := by
  obtain ⟨a1, a2, a3, a4, a5⟩ := game_root hF h.session h.get
  obtain ⟨e1, e2, e3, e4, e5, e6, e7⟩ := extend_spec hF h.session h.get
  have hprops : (L.extendMainSequence g).heap.props L.heap.length = [] := by rw [e5, props_ge (Nat.le_refl _)]
  have hu := update_eq (L := L.extendMainSequence g) (g := g) (n := L.heap.length) (f := fun P m => setMove P m c mv) (by
    rw [hprops]; exact hok)
  have hlt : L.heap.length < (L.extendMainSequence g).heap.length := by rw [e3]; omega
  have hg' : (L.extendMainSequence g).games[L0.games.length]? = some g := by rw [e2]; exact h.get
  have hs' := update_session e1 hg' hlt e4 (.setMove c mv) (fun _ _ => rfl) hu
  refine ⟨_, hu, ⟨hs', h.games, ?_, ?_⟩, ?_⟩
  · rw [mainSequence_update hlt hu, e6, List.map_append]
    simp only [List.map_cons, List.map_nil, if_true, hprops]
    congr 1
    rw [← h.seq]
    unfold Lib.mainSequence
    refine List.map_congr_left ?_
    intro i hi
    have := mem_main_lt (session_inv hF h.session).edited a1 i hi
    rw [if_neg (by omega), e5]
  · intro o' g' hg'
    obtain ⟨b1, b2⟩ := h.other hg'
    rw [mainSequence_other hF e1 (by rw [e2]; exact b1) hlt (by rw [e4]; exact fun e => b2 e.symm) hu]
    rw [← h.frame o' g' hg']
    unfold Lib.mainSequence
    rw [e7 o' g' b1 b2]
    exact List.map_congr_left (fun i _ => e5 i)
  · rw [lastNode_setProps]
    obtain ⟨_, _, p3, _⟩ := C23_navigation (session_inv hF e1).edited g.root (by rw [e3]; omega)
    rw [e6] at p3
    simpa using p3.symm

/-! ### A new game -/

/-- The root node of a new game. -/
def newRootProps (size : Int) (name : Str) : PropMap :=
  [(['F', 'F'], [['4']]), (['G', 'M'], [['1']]), (['S', 'Z'], [strInt size]), (['C', 'A'], [name])]

theorem newGameProps_eq {P : Presenter} {name : Str} (hv : ∀ c ∈ name, c ≠ '\\' ∧ c ≠ ']') :
    newGameProps P name = (newRootProps P.size name, .ok ()) := by
  have h1 := (isValidValue_iff _).2 (strInt_valid P.size)
  have h2 := (isValidValue_iff _).2 (validValue_plain hv)
  have i1 : isValidIdent ['F', 'F'] = true := by decide
  have i2 : isValidIdent ['G', 'M'] = true := by decide
  have i3 : isValidIdent ['S', 'Z'] = true := by decide
  have i4 : isValidIdent ['C', 'A'] = true := by decide
  have v1 : isValidValue ['4'] = true := by decide
  have v2 : isValidValue ['1'] = true := by decide
  simp [newGameProps, setRaw, setRawListUnchecked, Upd.andThen, h1, h2, i1, i2, i3, i4, v1, v2, PropMap.assign, PropMap.has, PropMap.find, newRootProps]

theorem newGame_at (hF : ∀ q, ∀ c ∈ F.repr q, c ≠ ']' ∧ c ≠ '\\') (hN : NamesOK E) {L : Lib} (hs : Session E F L) {size : Int} (h1 : 1 ≤ size) (h2 : size ≤ 26)
    {encoding name : Str} (hn : E.normalise encoding = some name) :
    ∃ L', L.newGame E F size encoding = .ok L' ∧
      At E F L L' ⟨Presenter.new size (E.codec name) F, name, L.heap.length⟩ [newRootProps size name] := by
  have hc := (hN.chars _ _ hn).2
  have hP : (Presenter.new size (E.codec name) F).size = size := rfl
  have hu := newGameProps_eq (P := Presenter.new size (E.codec name) F) (name := name) (fun c h => ⟨(hc c h).1, (hc c h).2.1⟩)
  have hng : L.newGame E F size encoding = .ok ⟨L.heap.newRoot L.games.length (newRootProps size name),
      L.games ++ [⟨Presenter.new size (E.codec name) F, name, L.heap.length⟩]⟩ := by
    unfold Lib.newGame makePresenter
    rw [if_neg (not_not.2 ⟨h1, h2⟩), hn]
    simp only [bind, Except.bind, hu, hP, pure, Except.pure]
  refine ⟨_, hng, .step hs (.newGame hng), rfl, ?_, ?_⟩
  · have hs' : Session E F _ := .step hs (.newGame hng)
    have hlt : L.heap.length < (L.heap.newRoot L.games.length (newRootProps size name)).length := by unfold Heap.newRoot; simp
    obtain ⟨p1, p2, _⟩ := C23_navigation (session_inv hF hs').edited L.heap.length hlt
    have hch : Heap.children (L.heap.newRoot L.games.length (newRootProps size name)) L.heap.length = [] := children_of_get (newRoot_get _ _ _)
    have := path_unique p1 (.leaf hch) (by rw [p2]; rfl)
    unfold Lib.mainSequence
    simp only at this ⊢
    rw [this]
    simp only [List.map_cons, List.map_nil, List.cons.injEq, and_true]
    unfold Heap.props
    rw [newRoot_get]
  · intro o' g' hg'
    obtain ⟨a1, a2, a3, _⟩ := game_root hF hs hg'
    have hs' : Session E F _ := .step hs (.newGame hng)
    have hget : ∀ i, i < L.heap.length → (L.heap.newRoot L.games.length (newRootProps size name))[i]? = L.heap[i]? := by
      intro i hi
      unfold Heap.newRoot
      rw [List.getElem?_append_left hi]
    obtain ⟨p1, p2, _⟩ := C23_navigation (session_inv hF hs').edited g'.root (by
      show _ < (L.heap.newRoot L.games.length (newRootProps size name)).length
      unfold Heap.newRoot; simp; omega)
    obtain ⟨q1, q2, _⟩ := C23_navigation (session_inv hF hs).edited g'.root a1
    have hlt := mem_main_lt (session_inv hF hs).edited a1
    have heq : getMainSequence (L.heap.newRoot L.games.length (newRootProps size name)) g'.root = getMainSequence L.heap g'.root := by
      refine (path_unique (path_congr q1 ?_) p1 (by rw [q2, p2])).symm
      intro i hi
      unfold Heap.children
      rw [hget i (hlt i hi)]
    unfold Lib.mainSequence
    simp only
    rw [heq]
    refine List.map_congr_left ?_
    intro i hi
    unfold Heap.props
    rw [hget i (hlt i hi)]

end Gomill.Sgf
