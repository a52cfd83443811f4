import Verif.Lemmas.SgfGame
import Verif.Lemmas.SgfTransValue
/-
C52: an SGF game, however it was made and edited, can be serialised and loaded again.
-/
namespace Gomill.Sgf

open Py

variable {E : Encodings} {F : Floats}

/-! ### C52 -/

mutual
theorem rep_unique {h : Heap PropMap} {o : Nat} : ∀ {par : Option Nat} {i : Nat} {t t' : NTree PropMap} {ids ids' : List Nat},
    Rep h o par i t ids → Rep h o par i t' ids' → t = t'
  | par, i, .mk p ts, .mk p' ts', ids, ids', h1, h2 => by
    rw [Rep] at h1 h2
    obtain ⟨r, rest, _, a1, a2, _, _, a5⟩ := h1
    obtain ⟨r', rest', _, b1, b2, _, _, b5⟩ := h2
    rw [a1] at b1
    cases b1
    rw [← a2, ← b2, repL_unique a5 b5]
theorem repL_unique {h : Heap PropMap} {o : Nat} : ∀ {par : Option Nat} {is : List Nat} {ts ts' : List (NTree PropMap)} {ids ids' : List Nat},
    RepL h o par is ts ids → RepL h o par is ts' ids' → ts = ts'
  | _, [], [], [], _, _, _, _ => rfl
  | _, i :: is, t :: ts, t' :: ts', _, _, h1, h2 => by
    rw [RepL] at h1 h2
    obtain ⟨a, b, _, a1, a2⟩ := h1
    obtain ⟨a', b', _, b1, b2⟩ := h2
    rw [rep_unique a1 b1, repL_unique a2 b2]
  | _, [], _ :: _, _, _, _, h1, _ => by simp [RepL] at h1
  | _, [], _, _ :: _, _, _, _, h1 => by simp [RepL] at h1
  | _, _ :: _, [], _, _, _, h1, _ => by simp [RepL] at h1
  | _, _ :: _, _, [], _, _, _, h1 => by simp [RepL] at h1
end

/-- C52: in every session, each game's nodes form a tree with valid properties (and only one), its root node gives the
size that the game was made with, and serialising goes over exactly that tree. -/
theorem C52_has_tree (hF : ∀ q, ∀ c ∈ F.repr q, c ≠ ']' ∧ c ≠ '\\') {L : Lib} (hs : Session E F L) {o : Nat} {g : GameRec}
    (hg : L.games[o]? = some g) :
    ∃ t, HasTree L o g t ∧ (∀ t', HasTree L o g t' → t' = t) ∧ (∀ m, t.Has m → ValidMap m) ∧
      (makeCoarse L.heap g.root).nodes = [t] ∧ EffectiveSize (L.heap.props g.root) g.presenter.size := by
  have hi := session_inv hF hs
  obtain ⟨r, a1, a2, a3, a4, a5⟩ := hi.games o g hg
  have hlt : g.root < L.heap.length := (List.getElem?_eq_some_iff.1 a1).1
  obtain ⟨t, ids, h1, h2, h3, h4⟩ := C24_edited hi.edited g.root hlt
  rw [owner_of_get a1, parent_of_get a1, a2, a3] at h1
  refine ⟨t, ⟨ids, h1, h2⟩, ?_, ?_, h3, ?_⟩
  · rintro t' ⟨ids', b1, _⟩
    exact rep_unique b1 h1
  · intro m hm
    obtain ⟨j, r', c1, c2, _⟩ := rep_has hm h1
    rw [← c2]
    exact (hi.nodes j r' c1).1
  · unfold Heap.props
    rw [a1]
    exact a4

theorem means_plain {simple : Bool} : ∀ {s : Str}, (∀ c ∈ s, c ≠ '\\') → OneLine s → Means simple s s
  | [], _, _ => .nil
  | c :: s, h1, h2 => by
    obtain ⟨b1, b2, b3, b4, b5⟩ := h2 c (by simp)
    have := means_plain (simple := simple) (s := s) (fun d hd => h1 d (List.mem_cons_of_mem _ hd)) (fun d hd => h2 d (List.mem_cons_of_mem _ hd))
    have := Means.plain (simple := simple) (h1 c (by simp)) b2 b1 this
    rwa [show spaceFor c = c from by unfold spaceFor; rw [if_neg]; simp [b3, b4, b5]] at this

theorem dec_ascii {C : Codec} (hC : AsciiCompatible C) : ∀ {s : Str}, (∀ c ∈ s, c.toNat < 128) → C.dec s = some s
  | [], _ => hC.nil
  | c :: s, h => by
    rw [dec_cons hC (h c (by simp)), dec_ascii hC (fun d hd => h d (List.mem_cons_of_mem _ hd))]
    rfl

theorem getCharset_declares {P : Presenter} (hca : P.lookupType ['C', 'A'] = some .simpletext) (hC : AsciiCompatible P.codec)
    {m : PropMap} {name : Str} (hd : Declares E m name) : getCharset P E.normalise m = .ok name := by
  unfold Declares at hd
  unfold getCharset nodeGet PropMap.item
  rw [find_eq_lookup]
  cases hl : lookup m ['C', 'A'] with
  | none => rw [hl] at hd; rw [hd]; rfl
  | some vs =>
    rw [hl] at hd
    obtain ⟨raw, rfl, h2, h3, h4⟩ := hd
    have hv : simpletextValue raw = raw := (C20_simpletext_value _ _).2 (means_plain (fun c hc => (h4 c hc).1) h3)
    simp only [bind, Except.bind, Presenter.interpret, Presenter.effectiveType, hca, Presenter.interpretAs, singleValue, interpretSimpletext, hv,
      dec_ascii hC (fun c hc => (h4 c hc).2), orValueError, pure, Except.pure, h2]

theorem sameMap_root {t t' : CTree} (h : SameTree t t') {root : PropMap} {s : List PropMap} {ch : List CTree} (ht : t = .mk (root :: s) ch) :
    ∃ root' s' ch', t' = .mk (root' :: s') ch' ∧ SameMap root root' := by
  subst ht
  cases h with
  | @mk _ sq' _ ch' h1 h2 _ _ =>
    cases sq' with
    | nil => simp at h1
    | cons root' s' => exact ⟨root', s', ch', rfl, h2 0 (by simp) (by simp)⟩

theorem effectiveSize_same {m m' : PropMap} (h : SameMap m m') {n : Int} (hn : EffectiveSize m n) : EffectiveSize m' n := by
  unfold EffectiveSize at hn ⊢
  rwa [← h]

/-- What loading a valid tree without an override does. -/
theorem load_valid {t : CTree} {root : PropMap} {s : List PropMap} {ch : List CTree} (ht : t = .mk (root :: s) ch) (hv : t.coarse.Nonempty)
    {size : Int} (h1 : EffectiveSize root size) (h2 : 1 ≤ size) (h3 : size ≤ 26) {e n : Str} (h4 : loadEncoding root none = .ok e)
    (h5 : E.normalise e = some n) (M : Lib) :
    ∃ M' g' t', M.load E F t none = .ok M' ∧ M'.games = M.games ++ [g'] ∧ g'.encoding = n ∧ g'.presenter = Presenter.new size (E.codec n) F ∧
      HasTree M' M.games.length g' t' ∧ t.coarse.nodes = [t'] ∧ ∀ j, j < M.heap.length → M'.heap[j]? = M.heap[j]? := by
  subst ht
  obtain ⟨h', t', ids, e1, e2, e3⟩ := makeTree_spec (c := (CTree.mk (root :: s) ch).coarse) rfl hv
    (h := M.heap.newRoot M.games.length root) (root := M.heap.length) (o := M.games.length) ⟨newRoot_get _ _ _⟩
  refine ⟨⟨h', M.games ++ [⟨Presenter.new size (E.codec n) F, n, M.heap.length⟩]⟩, ⟨Presenter.new size (E.codec n) F, n, M.heap.length⟩, t', ?_, rfl, rfl, rfl,
    ⟨ids, e3.rep, e3.nodup⟩, e2, ?_⟩
  · have hp : makePresenter E F size e = .ok (Presenter.new size (E.codec n) F, n) := by
      unfold makePresenter
      rw [if_neg (by omega), h5]
    unfold Lib.load
    simp only [CTree.sequence, bind, Except.bind, loadSize_iff.2 h1, h4, hp, loadRoot, e1]
    rfl
  · intro j hj
    have := e3.frame j (by unfold Heap.newRoot; simp; omega) (by omega)
    rw [this]
    unfold Heap.newRoot
    rw [List.getElem?_append_left hj]

theorem loadEncoding_declares {m : PropMap} (hN : NamesOK E) {name : Str} (hd : Declares E m name) :
    ∃ e, loadEncoding m none = .ok e ∧ E.normalise e = some name := by
  unfold Declares at hd
  unfold loadEncoding
  simp only
  rw [find_eq_lookup]
  cases hl : lookup m ['C', 'A'] with
  | none => rw [hl] at hd; rw [hd]; exact ⟨_, rfl, hN.latin1⟩
  | some vs =>
    rw [hl] at hd
    obtain ⟨raw, rfl, h2, _⟩ := hd
    exact ⟨raw, rfl, h2⟩

theorem declares_same {m m' : PropMap} (h : SameMap m m') {n : Str} (hn : Declares E m n) : Declares E m' n := by
  unfold Declares at hn ⊢
  rwa [← h]

theorem coarse_root {h : Heap PropMap} {root : Nat} {t : NTree PropMap} (hc : (makeCoarse h root).Nonempty) (hn : (makeCoarse h root).nodes = [t])
    {ts : List (NTree PropMap)} {p : PropMap} (ht : t = .mk p ts) : ∃ s cs, makeCoarse h root = .mk (p :: s) cs := by
  cases hm : makeCoarse h root with
  | mk sq cs =>
    rw [hm] at hc hn
    cases sq with
    | nil => cases hc
    | cons q s =>
      rw [Coarse.nodes, chain_cons] at hn
      simp only [List.cons.injEq, and_true] at hn
      rw [ht] at hn
      cases hn
      exact ⟨s, cs, rfl⟩

theorem canonical_nonempty {c : Coarse PropMap} (h : c.Canonical) : c.Nonempty := by
  induction h with
  | mk _ _ ih => exact .mk ih

theorem treeRel_nonempty {R : PropMap → PropMap → Prop} {t t' : CTree} (h : TreeRel R t t') (hn : t.coarse.Nonempty) : t'.coarse.Nonempty := by
  induction h with
  | @mk sq sq' ch ch' h1 _ h3 _ ih =>
    rw [CTree.coarse, coarseList_eq] at hn ⊢
    cases sq with
    | nil => cases hn
    | cons p s =>
      cases sq' with
      | nil => simp at h1
      | cons p' s' =>
        cases hn with
        | mk hc =>
          refine .mk ?_
          intro c hc'
          obtain ⟨d, hd, rfl⟩ := List.mem_map.1 hc'
          obtain ⟨i, hi, rfl⟩ := List.mem_iff_getElem.1 hd
          exact ih i (by omega) hi (hc _ (List.mem_map_of_mem (List.getElem_mem (by omega))))

/-- C52: a game, however it was made and edited, whose root node declares its encoding (as all do, unless the CA property
was changed) can be serialised. Loading the result gives a game of the same size and encoding with the same nodes, with the
same properties, and affects no other game. -/
theorem C52_round_trip (hF : ∀ q, ∀ c ∈ F.repr q, c ≠ ']' ∧ c ≠ '\\') (hN : NamesOK E) {L : Lib} (hs : Session E F L)
    {o : Nat} {g : GameRec} (hg : L.games[o]? = some g) (hca : g.presenter.lookupType ['C', 'A'] = some .simpletext)
    (hd : Declares E (L.heap.props g.root) g.encoding) (hC : AsciiCompatible (E.codec g.encoding)) (wrap : Option Int) :
    ∃ t s, HasTree L o g t ∧ L.serialise E g wrap = .ok s ∧
      ∀ M : Lib, ∃ M' g' t', M.fromString E F s none = .ok M' ∧ M'.games = M.games ++ [g'] ∧ g'.encoding = g.encoding ∧
        g'.presenter = Presenter.new g.presenter.size (E.codec g.encoding) F ∧
        HasTree M' M.games.length g' t' ∧ Corresponds SameMap t t' ∧ ∀ j, j < M.heap.length → M'.heap[j]? = M.heap[j]? := by
  have hi := session_inv hF hs
  obtain ⟨r, a1, a2, a3, a4, a5, a6, a7, a8, a9⟩ := hi.games o g hg
  obtain ⟨t, h1, h2, h3, h4, h5⟩ := C52_has_tree hF hs hg
  have hlt : g.root < L.heap.length := (List.getElem?_eq_some_iff.1 a1).1
  obtain ⟨_, _, _, _, _, hcan⟩ := C24_edited hi.edited g.root hlt
  have hne := canonical_nonempty hcan
  obtain ⟨ids, hrep, hnd⟩ := h1
  obtain ⟨ts, ht⟩ := rep_root hrep
  have hvt : ValidTree (makeCoarse L.heap g.root).ctree := by
    refine validTree_ctree hne ?_
    rw [h4]
    intro u hu
    rw [List.mem_singleton] at hu
    rw [hu]
    exact h3
  refine ⟨t, Sgf.serialise (makeCoarse L.heap g.root).ctree wrap, ⟨ids, hrep, hnd⟩, ?_, ?_⟩
  · unfold Lib.serialise
    rw [getCharset_declares hca (by rw [a7]; exact hC) hd]
    simp only [bind, Except.bind, if_true]
    rfl
  · intro M
    obtain ⟨t', p1, p2⟩ := C16_round_trip _ hvt wrap []
    rw [List.append_nil] at p1
    obtain ⟨s, cs, hmc⟩ := coarse_root hne h4 ht
    obtain ⟨root', s', ch', rfl, hroot⟩ := sameMap_root p2 (root := L.heap.props g.root) (s := s) (ch := Coarse.ctree.ctreeList cs) (by rw [hmc, Coarse.ctree])
    obtain ⟨e, q1, q2⟩ := loadEncoding_declares hN (declares_same hroot hd)
    have hcorr := treeRel_nodes (treeRel_of_same p2)
    rw [coarse_ctree, h4] at hcorr
    have hne' : (CTree.mk (root' :: s') ch').coarse.Nonempty := treeRel_nonempty (treeRel_of_same p2) (by rw [coarse_ctree]; exact hne)
    obtain ⟨M', g', t'', m1, m2, m3, m4, m5, m6, m7⟩ := load_valid (E := E) (F := F) rfl hne' (effectiveSize_same hroot h5) a5 a6 q1 q2 M
    rw [m6] at hcorr
    refine ⟨M', g', t'', ?_, m2, m3, m4, m5, corrL_singleton hcorr, m7⟩
    unfold Lib.fromString
    rw [p1]
    exact m1

/-- C52: the hypothesis of `C52_round_trip` holds for new games, for games loaded with an explicit encoding, and for games
loaded from files that name their encoding without escapes; and changing other properties, or other games, keeps it. -/
theorem C52_declared (hN : NamesOK E) :
    (∀ (L L' : Lib) (size : Int) (encoding : Str), L.newGame E F size encoding = .ok L' → ∃ g, L'.games = L.games ++ [g] ∧
      E.normalise encoding = some g.encoding ∧ Declares E (L'.heap.props g.root) g.encoding ∧
      g.presenter.lookupType ['C', 'A'] = some .simpletext) ∧
    (∀ (L L' : Lib) (t : CTree) (override : Option Str), L.load E F t override = .ok L' → ∃ g, L'.games = L.games ++ [g] ∧
      g.presenter.lookupType ['C', 'A'] = some .simpletext) ∧
    (∀ (P : Presenter) (m : PropMap) (op : NodeOp) (name : Str), ¬ op.Touches ['C', 'A'] → Declares E m name →
      Declares E (op.apply P m).1 name) := by
  refine ⟨?_, ?_, ?_⟩
  · intro L L' size encoding h
    unfold Lib.newGame at h
    cases hp : makePresenter E F size encoding with
    | error e => rw [hp] at h; simp [bind, Except.bind] at h
    | ok pn =>
      obtain ⟨P, n⟩ := pn
      obtain ⟨b1, b2, b3, b4⟩ := makePresenter_ok hp
      rw [hp] at h
      simp only [bind, Except.bind] at h
      split at h
      · cases h
      · rename_i hu
        cases h
        refine ⟨⟨P, n, L.heap.length⟩, rfl, b3, ?_, by rw [b4]; rfl⟩
        unfold Heap.props
        rw [newRoot_get]
        simp only
        have hca : lookup (newGameProps P n).1 ['C', 'A'] = some [n] := by
          unfold newGameProps at hu ⊢
          generalize ((setRaw P [] _ _).andThen _).andThen _ = u at hu ⊢
          unfold Upd.andThen at hu ⊢
          cases h2 : u.2 with
          | error e => rw [h2] at hu; cases hu
          | ok x =>
            rw [h2] at hu
            simp only at hu ⊢
            unfold setRaw at hu ⊢
            split at hu
            · cases hu
            · rename_i a1
              split at hu
              · cases hu
              · rename_i a2
                rw [if_neg a1, if_neg a2]
                unfold setRawListUnchecked
                rw [if_neg (fun h => absurd h.1 (by decide))]
                simp only
                rw [lookup_assign, if_pos rfl]
        unfold Declares
        rw [hca]
        obtain ⟨c1, c2⟩ := hN.chars _ _ b3
        exact ⟨n, rfl, hN.idem _ _ b3, c1, fun c hc => ⟨(c2 c hc).1, (c2 c hc).2.2⟩⟩
  · intro L L' t override h
    obtain ⟨root, s, ch, size, e, P, n, h', rfl, a2, a3, a4, a5, a6', a6, a8, rfl⟩ := load_ok h
    exact ⟨_, rfl, by rw [a5]; rfl⟩
  · intro P m op name ht hd
    unfold Declares at hd ⊢
    rwa [C51_frame P m op _ ht]

/-! ### C53 -/

theorem chain_hasP {m : PropMap} : ∀ {s : List PropMap} {us : List (NTree PropMap)},
    (∃ u ∈ chain s us, u.Has m) ↔ m ∈ s ∨ ∃ u ∈ us, u.Has m
  | [], us => by simp [chain]
  | p :: s, us => by
    have ih := chain_hasP (m := m) (s := s) (us := us)
    rw [chain_cons]
    constructor
    · rintro ⟨u, hu, hh⟩
      rw [List.mem_singleton] at hu
      subst hu
      cases hh with
      | here => exact Or.inl (by simp)
      | inChild ht hh =>
        rcases ih.1 ⟨_, ht, hh⟩ with h | h
        · exact Or.inl (List.mem_cons_of_mem _ h)
        · exact Or.inr h
    · intro h
      refine ⟨_, List.mem_singleton_self _, ?_⟩
      by_cases hp : m = p
      · subst hp; exact .here
      · obtain ⟨u, hu, hh⟩ := ih.2 (by
          rcases h with h | h
          · rcases List.mem_cons.1 h with h | h
            · exact absurd h hp
            · exact Or.inl h
          · exact Or.inr h)
        exact .inChild hu hh

theorem nodesL_flatMap (cs : List (Coarse PropMap)) : nodesL cs = cs.flatMap Coarse.nodes := by
  induction cs with
  | nil => rfl
  | cons c cs ih => rw [nodesL, ih]; rfl

theorem inTree_ctree {c : Coarse PropMap} (hc : c.Nonempty) (m : PropMap) : InTree m c.ctree ↔ ∃ u ∈ c.nodes, u.Has m := by
  induction hc with
  | @mk p s cs _ ih =>
    rw [Coarse.ctree, ctreeList_eq, Coarse.nodes, chain_hasP, nodesL_flatMap]
    constructor
    · intro h
      cases h with
      | here h => exact Or.inl h
      | inChild hd h =>
        obtain ⟨c, hc, rfl⟩ := List.mem_map.1 hd
        obtain ⟨u, hu, hh⟩ := (ih c hc).1 h
        exact Or.inr ⟨u, List.mem_flatMap.2 ⟨c, hc, hu⟩, hh⟩
    · rintro (h | ⟨u, hu, hh⟩)
      · exact .here h
      · obtain ⟨c, hc, hu⟩ := List.mem_flatMap.1 hu
        exact .inChild (List.mem_map_of_mem hc) ((ih c hc).2 ⟨u, hu, hh⟩)

theorem lookup_of_mem {m : PropMap} (hn : (m.map (·.1)).Nodup) {p : Str × List Raw} (hp : p ∈ m) : lookup m p.1 = some p.2 := by
  induction m with
  | nil => simp at hp
  | cons q m ih =>
    rw [List.map_cons, List.nodup_cons] at hn
    rw [lookup]
    rcases List.mem_cons.1 hp with rfl | hp
    · rw [if_pos rfl]
    · rw [if_neg, ih hn.2 hp]
      intro h
      exact hn.1 (h ▸ List.mem_map_of_mem hp)

/-- C53: when the root node's CA property declares an encoding other than the one the values are stored in, serialising
converts the game: it works if and only if every value of the game can be converted; otherwise a ValueError is raised.
Loading the result gives a game of the same size, in the declared encoding, with the same nodes and with each value
converted. -/
theorem C53_transcode (hF : ∀ q, ∀ c ∈ F.repr q, c ≠ ']' ∧ c ≠ '\\') (hN : NamesOK E) {L : Lib} (hs : Session E F L)
    {o : Nat} {g : GameRec} (hg : L.games[o]? = some g) (hca : g.presenter.lookupType ['C', 'A'] = some .simpletext)
    {name : Str} (hd : Declares E (L.heap.props g.root) name) (hne : name ≠ g.encoding)
    (ha : Transcodable (E.codec g.encoding)) (hb : Transcodable (E.codec name)) (wrap : Option Int) :
    ∃ t, HasTree L o g t ∧
      ((∃ s, L.serialise E g wrap = .ok s) ↔
        ∀ m, t.Has m → ∀ ident vs, lookup m ident = some vs → ∀ v ∈ vs, ∃ v', transcode (E.codec g.encoding) (E.codec name) v = some v') ∧
      (∀ e, L.serialise E g wrap = .error e → e = .valueError) ∧
      ∀ s, L.serialise E g wrap = .ok s → ∀ M : Lib, ∃ M' g' t', M.fromString E F s none = .ok M' ∧ M'.games = M.games ++ [g'] ∧
        g'.encoding = name ∧ g'.presenter = Presenter.new g.presenter.size (E.codec name) F ∧
        HasTree M' M.games.length g' t' ∧ Corresponds (TransMap (E.codec g.encoding) (E.codec name)) t t' ∧
        ∀ j, j < M.heap.length → M'.heap[j]? = M.heap[j]? := by
  have hi := session_inv hF hs
  obtain ⟨r, a1, a2, a3, a4, a5, a6, a7, a8, a9⟩ := hi.games o g hg
  obtain ⟨t, h1, h2, h3, h4, h5⟩ := C52_has_tree hF hs hg
  have hlt : g.root < L.heap.length := (List.getElem?_eq_some_iff.1 a1).1
  obtain ⟨_, _, _, _, _, hcan⟩ := C24_edited hi.edited g.root hlt
  have hnem := canonical_nonempty hcan
  obtain ⟨ids, hrep, hnd⟩ := h1
  obtain ⟨ts, ht⟩ := rep_root hrep
  have hvt : ValidTree (makeCoarse L.heap g.root).ctree := by
    refine validTree_ctree hnem ?_
    rw [h4]
    intro u hu
    rw [List.mem_singleton] at hu
    rw [hu]
    exact h3
  have hT := asciiMap_transcode ha hb
  obtain ⟨s1, s2⟩ := serialise_T hT hvt wrap
  have hser : L.serialise E g wrap = orValueError (transcode (E.codec g.encoding) (E.codec name) (Sgf.serialise (makeCoarse L.heap g.root).ctree wrap)) := by
    unfold Lib.serialise
    rw [getCharset_declares hca (by rw [a7]; exact ha.toAsciiCompatible) hd]
    simp only [bind, Except.bind, if_neg hne]
  have hall : AllConv (transcode (E.codec g.encoding) (E.codec name)) (makeCoarse L.heap g.root).ctree ↔
      ∀ m, t.Has m → ∀ ident vs, lookup m ident = some vs → ∀ v ∈ vs, ∃ v', transcode (E.codec g.encoding) (E.codec name) v = some v' := by
    have hin : ∀ m, InTree m (makeCoarse L.heap g.root).ctree ↔ t.Has m := by
      intro m
      rw [inTree_ctree hnem, h4]
      simp
    constructor
    · intro h m hm ident vs hl
      exact h m ((hin m).2 hm) (ident, vs) (lookup_some_mem hl)
    · intro h m hm p hp
      have hm' := (hin m).1 hm
      exact h m hm' p.1 p.2 (lookup_of_mem (h3 m hm').keys hp)
  refine ⟨t, ⟨ids, hrep, hnd⟩, ?_, ?_, ?_⟩
  · rw [← hall, hser]
    constructor
    · rintro ⟨s, hs'⟩
      cases hc : transcode (E.codec g.encoding) (E.codec name) (Sgf.serialise (makeCoarse L.heap g.root).ctree wrap) with
      | none => rw [hc] at hs'; cases hs'
      | some s' => exact s1 s' hc
    · intro h
      obtain ⟨s', e1, _⟩ := s2 h
      exact ⟨s', by rw [e1]; rfl⟩
  · intro e he
    rw [hser] at he
    cases hc : transcode (E.codec g.encoding) (E.codec name) (Sgf.serialise (makeCoarse L.heap g.root).ctree wrap) with
    | none => rw [hc] at he; cases he; rfl
    | some s' => rw [hc] at he; cases he
  · intro s hs' M
    have hc : transcode (E.codec g.encoding) (E.codec name) (Sgf.serialise (makeCoarse L.heap g.root).ctree wrap) = some s := by
      rw [hser] at hs'
      cases hc : transcode (E.codec g.encoding) (E.codec name) (Sgf.serialise (makeCoarse L.heap g.root).ctree wrap) with
      | none => rw [hc] at hs'; cases hs'
      | some s' => rw [hc] at hs'; cases hs'; rfl
    have hconv := s1 s hc
    obtain ⟨s', e1, hparse⟩ := s2 hconv
    rw [hc] at e1
    cases e1
    generalize hTT : transcode (E.codec g.encoding) (E.codec name) = T at *
    obtain ⟨sq, cs, hmc⟩ := coarse_root hnem h4 ht
    -- the converted tree
    have hval : ∀ m, InTree m (makeCoarse L.heap g.root).ctree → ∀ ident vs, lookup m ident = some vs →
        List.Forall₂ (fun v v' => T v = some v') vs (vs.map (conv T)) := by
      intro m hm ident vs hl
      exact forall2_map (fun v hv => conv_spec (hconv m hm (ident, vs) (lookup_some_mem hl) v hv))
    have hrel : TreeRel (TransMap (E.codec g.encoding) (E.codec name)) (makeCoarse L.heap g.root).ctree ((makeCoarse L.heap g.root).ctree.mapVals (conv T)).norm := by
      refine treeRel_trans (R := fun m m' => m' = mapProps (conv T) m ∧ InTree m (makeCoarse L.heap g.root).ctree) (S := SameMap) ?_
        (treeRel_mapVals (fun m hm => ⟨rfl, hm⟩) hvt) (treeRel_of_same (sameTree_norm (validTree_map hT hvt hconv)))
      rintro m m' m'' ⟨rfl, hm⟩ hsame ident
      rw [← hsame ident, lookup_mapProps, hTT]
      cases hl : lookup m ident with
      | none => trivial
      | some vs => exact hval m hm ident vs hl
    -- its root
    have hrootIn : InTree (L.heap.props g.root) (makeCoarse L.heap g.root).ctree := by
      rw [hmc, Coarse.ctree]
      exact .here (by simp)
    obtain ⟨root', s', ch', hnorm, hroot⟩ : ∃ root' s' ch', ((makeCoarse L.heap g.root).ctree.mapVals (conv T)).norm = .mk (root' :: s') ch' ∧
        SameMap (mapProps (conv T) (L.heap.props g.root)) root' := by
      refine sameMap_root (sameTree_norm (validTree_map hT hvt hconv)) (s := sq.map (mapProps (conv T)))
        (ch := CTree.mapVals.mapValsList (conv T) (Coarse.ctree.ctreeList cs)) ?_
      rw [hmc, Coarse.ctree, CTree.mapVals, List.map_cons]
    have hcv : ∀ v : Str, (∀ c ∈ v, c.toNat < 128) → conv T v = v := by
      intro v hv
      unfold conv
      rw [T_ascii hT hv]
      rfl
    have hsize : EffectiveSize root' g.presenter.size := by
      refine effectiveSize_same hroot ?_
      unfold EffectiveSize at h5 ⊢
      rw [lookup_mapProps]
      cases hl : lookup (L.heap.props g.root) ['S', 'Z'] with
      | none => rw [hl] at h5; exact h5
      | some vs =>
        rw [hl] at h5
        cases vs with
        | nil => exact h5
        | cons v vs =>
          simp only [Option.map_some, List.map_cons]
          rw [hcv v (parseInt_ascii h5)]
          exact h5
    have hdecl : Declares E root' name := by
      refine declares_same hroot ?_
      unfold Declares at hd ⊢
      rw [lookup_mapProps]
      cases hl : lookup (L.heap.props g.root) ['C', 'A'] with
      | none => rw [hl] at hd; exact hd
      | some vs =>
        rw [hl] at hd
        obtain ⟨raw, rfl, c1, c2, c3⟩ := hd
        simp only [Option.map_some, List.map_cons, List.map_nil]
        rw [hcv raw (fun c hc => (c3 c hc).2)]
        exact ⟨raw, rfl, c1, c2, c3⟩
    obtain ⟨e, q1, q2⟩ := loadEncoding_declares hN hdecl
    have hcorr := treeRel_nodes hrel
    rw [coarse_ctree, h4] at hcorr
    have hne' := treeRel_nonempty hrel (by rw [coarse_ctree]; exact hnem)
    obtain ⟨M', g', t'', m1, m2, m3, m4, m5, m6, m7⟩ := load_valid (E := E) (F := F) hnorm hne' hsize a5 a6 q1 q2 M
    rw [m6] at hcorr
    refine ⟨M', g', t'', ?_, m2, m3, m4, m5, corrL_singleton hcorr, m7⟩
    unfold Lib.fromString
    rw [hparse]
    exact m1

/-- C53: converted values mean the same: whatever the type of a property, what is read from its values before is read from
the converted values afterwards. -/
theorem C53_meaning {P P' : Presenter} (ha : Transcodable P.codec) (hb : Transcodable P'.codec) (hsz : P.size = P'.size) (h26 : P.size ≤ 26)
    (hfl : P.floats = P'.floats) (hfa : ∀ s q, P.floats.read s = some (.fin q) → ∀ c ∈ s, c.toNat < 128)
    {m m' : PropMap} (h : TransMap P.codec P'.codec m m') (ident : Str) (ht : P.lookupType ident = P'.lookupType ident) (hdt : P.default = P'.default)
    {x : PVal} (hx : nodeGet P m ident = .ok x) : nodeGet P' m' ident = .ok x := by
  unfold nodeGet PropMap.item at hx ⊢
  rw [find_eq_lookup] at hx ⊢
  have h' := h ident
  cases hl : lookup m ident with
  | none => rw [hl] at hx; cases hx
  | some vs =>
    rw [hl] at hx h'
    cases hl' : lookup m' ident with
    | none => rw [hl'] at h'; exact absurd h' (by simp)
    | some vs' =>
      rw [hl'] at h'
      simp only [bind, Except.bind, Presenter.interpret] at hx ⊢
      have he : P'.effectiveType ident = P.effectiveType ident := by
        unfold Presenter.effectiveType
        rw [← ht, ← hdt]
      rw [he]
      cases hty : P.effectiveType ident with
      | error e => rw [hty] at hx; cases hx
      | ok ty =>
        rw [hty] at hx
        exact interpretAs_T ha hb rfl rfl hsz h26 hfl hfa h' ty hx

/-- C53: UTF-8 and ISO-8859-1, the encodings that gomill uses by default, satisfy the assumptions. -/
theorem C53_encodings : Transcodable utf8Codec ∧ Transcodable latin1Codec := ⟨utf8_transcodable, latin1_transcodable⟩

/-! ### witnesses -/

/-- Python with two encodings. -/
def exampleEncodings : Encodings where
  normalise s := if s = "UTF-8".toList ∨ s = "ISO-8859-1".toList then some s else none
  codec n := if n = "UTF-8".toList then utf8Codec else latin1Codec

/-- No floats. -/
def noFloats : Floats := ⟨fun _ => none, fun _ => []⟩

def exampleLib0 : Lib := match Lib.newGame exampleEncodings noFloats ⟨[], []⟩ 9 "UTF-8".toList with
  | .ok L => L
  | .error _ => ⟨[], []⟩

def exampleGame : GameRec := ⟨Presenter.new 9 utf8Codec noFloats, "UTF-8".toList, 0⟩

/-- A new game in UTF-8 with a comment (with an e-acute), a child, and a move there. -/
def exampleLib1 : Lib :=
  let L := { exampleLib0 with heap := exampleLib0.heap.modify 0 (fun r => { r with
    props := ((NodeOp.set ['C'] (.str ['\\', Char.ofNat 0xc3, Char.ofNat 0xa9, ']'])).apply exampleGame.presenter r.props).1 }) }
  let L := { L with heap := L.heap.newChild 0 [] none }
  { L with heap := L.heap.modify 1 (fun r => { r with props := ((NodeOp.setMove .b (some (0, 8))).apply exampleGame.presenter r.props).1 }) }

/-- The same, declared to be in ISO-8859-1. -/
def exampleLib2 : Lib :=
  { exampleLib1 with heap := exampleLib1.heap.modify 0 (fun r => { r with
    props := ((NodeOp.setRaw ['C', 'A'] "ISO-8859-1".toList).apply exampleGame.presenter r.props).1 }) }

theorem exampleNames : NamesOK exampleEncodings where
  latin1 := by decide
  idem := by
    intro s n h
    simp only [exampleEncodings] at h
    split at h
    · rename_i hs
      cases h
      simp only [exampleEncodings]
      rw [if_pos hs]
    · cases h
  chars := by
    intro s n h
    simp only [exampleEncodings] at h
    split at h
    · rename_i hs
      cases h
      rcases hs with rfl | rfl
      · exact ⟨by unfold OneLine; decide, by decide⟩
      · exact ⟨by unfold OneLine; decide, by decide⟩
    · cases h

theorem exampleSession1 : Session exampleEncodings noFloats exampleLib1 := by
  have h0 : Session exampleEncodings noFloats exampleLib0 := .step .start (.newGame (size := 9) (encoding := "UTF-8".toList) rfl)
  have h1 := Session.step h0 (.update (n := 0) (g := exampleGame) (op := .set ['C'] (.str ['\\', Char.ofNat 0xc3, Char.ofNat 0xa9, ']'])) rfl (by decide))
  have h2 := Session.step h1 (.newChild (n := 0) (index := none) (by decide))
  exact Session.step h2 (.update (n := 1) (g := exampleGame) (op := .setMove .b (some (0, 8))) rfl (by decide))

/-- C52: non-vacuity. -/
theorem C52_witness : Session exampleEncodings noFloats exampleLib1 ∧ exampleLib1.games = [exampleGame] ∧
    Declares exampleEncodings (exampleLib1.heap.props 0) "UTF-8".toList ∧
    exampleLib1.serialise exampleEncodings exampleGame (some 79) =
      .ok ("(;FF[4]C[\\\\".toList ++ [Char.ofNat 0xc3, Char.ofNat 0xa9] ++ "\\]]CA[UTF-8]GM[1]SZ[9];B[ii])\n".toList) := by
  refine ⟨exampleSession1, rfl, ?_, by decide +kernel⟩
  exact ⟨"UTF-8".toList, by decide +kernel, by decide, by unfold OneLine; decide, by decide⟩

/-- C53: non-vacuity: the e-acute takes two bytes in UTF-8 and one in ISO-8859-1. -/
theorem C53_witness : Session exampleEncodings noFloats exampleLib2 ∧ exampleLib2.games = [exampleGame] ∧
    Declares exampleEncodings (exampleLib2.heap.props 0) "ISO-8859-1".toList ∧
    exampleLib2.serialise exampleEncodings exampleGame (some 79) =
      .ok ("(;FF[4]C[\\\\".toList ++ [Char.ofNat 0xe9] ++ "\\]]CA[ISO-8859-1]GM[1]SZ[9];B[ii])\n".toList) := by
  refine ⟨.step exampleSession1 (.update (n := 0) (g := exampleGame) (op := .setRaw ['C', 'A'] "ISO-8859-1".toList) rfl (by decide)), rfl, ?_,
    by decide +kernel⟩
  exact ⟨"ISO-8859-1".toList, by decide +kernel, by decide, by unfold OneLine; decide, by decide⟩

end Gomill.Sgf
