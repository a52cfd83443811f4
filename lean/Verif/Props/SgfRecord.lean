import Verif.Lemmas.SgfRecord
import Verif.Props.Board
/-
C54: recording a game in an Sgf_game, and reading it back.
-/
namespace Gomill.Sgf

open Py

variable {E : Encodings} {F : Floats}

theorem getMove_raw {m : PropMap} {size : Int} {x : Option (Colour × Option Pt)} (h : getMove m size = .ok x) :
    (x = none ∧ getRawMove m = .ok none) ∨
    ∃ c raw mv, x = some (c, mv) ∧ getRawMove m = .ok (some (c, raw)) ∧ interpretGoPoint raw size = .ok mv := by
  unfold getMove at h
  simp only [bind, Except.bind, pure, Except.pure] at h
  cases hr : getRawMove m with
  | error e => rw [hr] at h; cases h
  | ok v =>
    rw [hr] at h
    cases v with
    | none => cases h; exact Or.inl ⟨rfl, rfl⟩
    | some cr =>
      simp only at h
      cases hp : interpretGoPoint cr.2 size with
      | error e => rw [hp] at h; cases h
      | ok mv => rw [hp] at h; cases h; exact Or.inr ⟨cr.1, cr.2, mv, rfl, rfl, hp⟩

theorem collectMoves_single {m : PropMap} {size : Int} {c : Colour} {mv : Option Pt} (hs : hasSetupStones m = false)
    (h : getMove m size = .ok (some (c, mv))) : collectMoves size [m] = .ok [(c, mv)] := by
  rcases getMove_raw h with ⟨h, _⟩ | ⟨c', raw, mv', h1, h2, h3⟩
  · cases h
  · cases h1
    simp [collectMoves, hs, h2, h3, bind, Except.bind, pure, Except.pure]

theorem setMove_noSetup (P : Presenter) (c : Colour) (mv : Option Pt) : hasSetupStones (setMove P [] c mv).1 = false := by
  have key : ∀ k, k ≠ ['B'] → k ≠ ['W'] → PropMap.has (setMove P [] c mv).1 k = false := by
    intro k h1 h2
    unfold PropMap.has
    have := C51_frame P [] (.setMove c mv) k (by simp [NodeOp.Touches, h1, h2])
    simp only [NodeOp.apply] at this
    rw [find_eq_lookup, this]
    rfl
  unfold hasSetupStones
  rw [key _ (by decide) (by decide), key _ (by decide) (by decide), key _ (by decide) (by decide)]
  rfl

theorem props_ge {h : Heap PropMap} {i : Nat} (hi : h.length ≤ i) : h.props i = [] := by
  unfold Heap.props; rw [List.getElem?_eq_none hi]

/-- C54: in any session, adding a move to the end of a game (extend_main_sequence, then set_move) with any point on the
board, or a pass, succeeds. Afterwards get_setup_and_moves gives what it gave before, with that move added at the end
(and if it raised an exception, it still raises the same one). The main sequences of the other games haven't changed. -/
theorem C54_append (hF : ∀ q, ∀ c ∈ F.repr q, c ≠ ']' ∧ c ≠ '\\') {L : Lib} (hs : Session E F L) {o : Nat} {g : GameRec} (hg : L.games[o]? = some g)
    (hT : StandardTypes g.presenter) (h25 : g.presenter.size ≤ 25) (c : Colour) (mv : Option Pt) (hmv : ∀ p, mv = some p → OnBoard g.presenter.size p) :
    ∃ M m, L.addMove g c mv = .ok M ∧ Session E F M ∧ M.games = L.games ∧
      M.mainSequence g = L.mainSequence g ++ [m] ∧ getMove m g.presenter.size = .ok (some (c, mv)) ∧
      M.getSetupAndMoves g = (L.getSetupAndMoves g).map (fun r => (r.1, r.2 ++ [(c, mv)])) ∧
      (∀ o' g', L.games[o']? = some g' → o' ≠ o → M.mainSequence g' = L.mainSequence g') := by
  obtain ⟨a1, a2, a3, a4, a5⟩ := game_root hF hs hg
  obtain ⟨e1, e2, e3, e4, e5, e6, e7⟩ := extend_spec hF hs hg
  have hprops : (L.extendMainSequence g).heap.props L.heap.length = [] := by rw [e5, props_ge (Nat.le_refl _)]
  obtain ⟨s1, s2, _⟩ := (C51_set_move g.presenter hT a4 h25 [] c mv).1 hmv
  have hu := update_eq (L := L.extendMainSequence g) (g := g) (n := L.heap.length) (f := fun P m => setMove P m c mv) (by
    rw [hprops]; exact s1)
  have hlt : L.heap.length < (L.extendMainSequence g).heap.length := by rw [e3]; omega
  refine ⟨_, (setMove g.presenter [] c mv).1, hu, ?_, rfl, ?_, s2, ?_, ?_⟩
  · exact update_session e1 (by rw [e2]; exact hg) hlt e4 (.setMove c mv) (fun _ _ => rfl) hu
  · rw [mainSequence_update hlt hu, e6, List.map_append]
    simp only [List.map_cons, List.map_nil, if_true, hprops]
    congr 1
    unfold Lib.mainSequence
    refine List.map_congr_left ?_
    intro i hi
    have := mem_main_lt (session_inv hF hs).edited a1 i hi
    rw [if_neg (by omega), e5]
  · unfold Lib.getSetupAndMoves
    rw [mainSequence_update hlt hu, e6, List.map_append]
    simp only [List.map_cons, List.map_nil, if_true, hprops]
    have : (getMainSequence L.heap g.root).map (fun i => if i = L.heap.length then (setMove g.presenter [] c mv).1 else (L.extendMainSequence g).heap.props i)
        = L.mainSequence g := by
      unfold Lib.mainSequence
      refine List.map_congr_left ?_
      intro i hi
      have := mem_main_lt (session_inv hF hs).edited a1 i hi
      rw [if_neg (by omega), e5]
    rw [this, mainSequence_cons, getSetupAndMoves_append, collectMoves_single (setMove_noSetup _ _ _) s2]
    cases getSetupAndMoves g.presenter.size (L.heap.props g.root :: (getMainSequence L.heap g.root).tail.map L.heap.props) <;> rfl
  · intro o' g' hg' hne
    rw [mainSequence_other hF e1 (by rw [e2]; exact hg') hlt (by rw [e4]; exact fun e => hne e.symm) hu]
    unfold Lib.mainSequence
    rw [e7 o' g' hg' hne]
    exact List.map_congr_left (fun i _ => e5 i)

/-! ### set_initial_position -/

theorem mem_stonesOf_fold (c : Colour) (p : Pt) : ∀ (l : List (Colour × Pt)) (s : List Pt),
    p ∈ l.foldl (fun s cp => if cp.1 = c then setAdd s cp.2 else s) s ↔ p ∈ s ∨ (c, p) ∈ l
  | [], s => by simp
  | cp :: l, s => by
    rw [List.foldl_cons, mem_stonesOf_fold c p l]
    obtain ⟨d, q⟩ := cp
    by_cases hd : d = c
    · subst hd
      simp only [if_true, mem_setAdd, List.mem_cons, Prod.mk.injEq, true_and]
      constructor
      · rintro ((h | h) | h)
        · exact Or.inr (Or.inl h)
        · exact Or.inl h
        · exact Or.inr (Or.inr h)
      · rintro (h | h | h)
        · exact Or.inl (Or.inr h)
        · exact Or.inl (Or.inl h)
        · exact Or.inr h
    · have hd' : ¬ c = d := fun e => hd e.symm
      simp [hd, hd']

theorem mem_stonesOf {n : Nat} {b : Board} (h : ReachableBoard n b) (c : Colour) (p : Pt) :
    p ∈ stonesOf b c ↔ b.pos p = some c := by
  have hi := h.inv
  unfold stonesOf Board.listOccupiedPoints
  rw [mem_stonesOf_fold]
  simp only [List.not_mem_nil, false_or, List.mem_filterMap, mem_boardPoints, Option.map_eq_some_iff, Prod.mk.injEq]
  constructor
  · rintro ⟨q, h1, d, h2, rfl, rfl⟩
    rw [← at_eq_pos hi.wf h1]; exact h2
  · intro hp
    have h1 : Go.OnBoard b.side p := by
      by_contra hn
      rw [pos_off hi.wf hn] at hp
      cases hp
    exact ⟨p, h1, c, by rw [at_eq_pos hi.wf h1]; exact hp, rfl, rfl⟩

theorem collectMoves_cons_none {m : PropMap} {size : Int} (hs : hasSetupStones m = false) (hr : getRawMove m = .ok none) (l : List PropMap) :
    collectMoves size (m :: l) = collectMoves size l := by
  rw [collectMoves]
  simp [hs, hr, bind, Except.bind]

/-- If get_setup_and_moves works and the root has no move, then the moves are those below the root. -/
theorem moves_below {size : Int} {root : PropMap} {l : List PropMap} (hr : getRawMove root = .ok none) {b : Board} {ms : List (Colour × Option Pt)}
    (h : getSetupAndMoves size (root :: l) = .ok (b, ms)) : collectMoves size l = .ok ms := by
  unfold getSetupAndMoves at h
  simp only [bind, Except.bind, pure, Except.pure, throw, throwThe, MonadExceptOf.throw] at h
  cases hb : Board.init size.toNat with
  | error e => rw [hb] at h; cases h
  | ok b0 =>
    rw [hb] at h
    simp only at h
    cases hst : getSetupStones root size with
    | error e => rw [hst] at h; cases h
    | ok s =>
      rw [hst] at h
      simp only at h
      split at h
      · cases ha : b0.applySetup s.1 s.2.1 s.2.2 with
        | error e => rw [ha] at h; cases h
        | ok r =>
          rw [ha] at h
          simp only at h
          cases hlg : r.1 with
          | false => rw [hlg] at h; cases h
          | true =>
            rw [hlg] at h
            simp only [Bool.not_true, Bool.false_eq_true, if_false, hr, Option.isSome_none] at h
            cases hc : collectMoves size l with
            | error e => rw [hc] at h; cases h
            | ok ms' => rw [hc] at h; cases h; rfl
      · rw [collectMoves] at h
        cases hh : hasSetupStones root with
        | true => rw [hh] at h; cases h
        | false =>
          rw [hh] at h
          simp only [Bool.false_eq_true, if_false, hr, bind, Except.bind] at h
          cases hc : collectMoves size l with
          | error e => rw [hc] at h; cases h
          | ok ms' => rw [hc] at h; cases h; rfl

/-- The other way round, for setup stones without AE that form a legal position. -/
theorem setup_read {n : Nat} (hn : 2 ≤ n) {root : PropMap} {l : List PropMap} {ms : List (Colour × Option Pt)} (hr : getRawMove root = .ok none)
    (hc : collectMoves n l = .ok ms) {bp wp : List Pt} (hst : getSetupStones root n = .ok (bp, wp, []))
    (hh : hasSetupStones root = true ↔ bp ++ wp ≠ []) (hon : ∀ p ∈ bp ++ wp, Go.OnBoard n p)
    (hleg : Go.Legal n (Go.setupPos (fun _ => none) bp wp [])) :
    ∃ b', getSetupAndMoves n (root :: l) = .ok (b', ms) ∧ ReachableBoard n b' ∧ b'.pos = Go.setupPos (fun _ => none) bp wp [] := by
  obtain ⟨b0, hb0⟩ : ∃ b0, Board.init n = .ok b0 := by unfold Board.init; rw [if_neg (by omega)]; exact ⟨_, rfl⟩
  have h0 : ReachableBoard n b0 := ⟨b0, [], hb0, rfl⟩
  obtain ⟨_, _, _, _, hpos0⟩ := init_spec hb0
  by_cases hne : bp ≠ [] ∨ wp ≠ []
  · obtain ⟨ok, b', e1, e2, e3, _⟩ := C09_apply_setup h0 defaultPops bp wp [] (by simpa using hon)
    rw [hpos0] at e2 e3
    rw [e2.2 hleg] at e1
    refine ⟨b', ?_, ?_, ?_⟩
    · unfold getSetupAndMoves
      simp only [Int.toNat_natCast, hb0, hst, bind, Except.bind, pure, Except.pure]
      rw [if_pos hne]
      unfold Board.applySetup
      simp only [e1, Bool.not_true, Bool.false_eq_true, if_false, hr, Option.isSome_none, hc]
    · obtain ⟨b00, ops, r1, r2⟩ := h0
      refine ⟨b00, ops ++ [.setup defaultPops bp wp []], r1, ?_⟩
      rw [List.foldl_append, ← r2]
      simp only [List.foldl_cons, List.foldl_nil, stepBoard, e1]
    · rw [e3]
      funext q
      unfold Go.remove
      rw [if_neg]
      rintro ⟨c, hq⟩
      exact hq.2.2 (hleg q hq.1 (by rw [hq.2.1]; simp))
  · push Not at hne
    obtain ⟨rfl, rfl⟩ := hne
    have hh' : hasSetupStones root = false := by
      cases hx : hasSetupStones root with
      | false => rfl
      | true => exact absurd (hh.1 hx) (by simp)
    refine ⟨b0, ?_, h0, ?_⟩
    · unfold getSetupAndMoves
      simp only [Int.toNat_natCast, hb0, hst, bind, Except.bind, pure, Except.pure]
      rw [if_neg (by simp), collectMoves_cons_none hh' hr, hc]
    · rw [hpos0]; funext q; simp [Go.setupPos]

theorem setup_frame (P : Presenter) (m : PropMap) (b w e : List Pt) : getRawMove (setSetupStones P m b w e).1 = getRawMove m := by
  have h1 := C51_frame P m (.setSetupStones b w e) ['B'] (by simp [NodeOp.Touches])
  have h2 := C51_frame P m (.setSetupStones b w e) ['W'] (by simp [NodeOp.Touches])
  simp only [NodeOp.apply] at h1 h2
  unfold getRawMove
  rw [find_eq_lookup, find_eq_lookup, find_eq_lookup, find_eq_lookup, h1, h2]

theorem onBoard_int {n : Nat} {p : Pt} : OnBoard (n : Int) p ↔ Go.OnBoard n p := Iff.rfl

/-- C54: in a game that get_setup_and_moves can read (with no move in the root node), `set_initial_position(game, board)`
with the position of any board of the right size succeeds; afterwards get_setup_and_moves gives a board with that position,
and the same moves as before. The other games haven't changed. -/
theorem C54_position (hF : ∀ q, ∀ c ∈ F.repr q, c ≠ ']' ∧ c ≠ '\\') {L : Lib} (hs : Session E F L) {o : Nat} {g : GameRec} (hg : L.games[o]? = some g)
    (hT : StandardTypes g.presenter) {n : Nat} (hn : g.presenter.size = n) (h2 : 2 ≤ n) (h25 : n ≤ 25) {b : Board} (hb : ReachableBoard n b)
    {b0 : Board} {ms : List (Colour × Option Pt)} (hr : getRawMove (L.heap.props g.root) = .ok none) (hm : L.getSetupAndMoves g = .ok (b0, ms)) :
    ∃ M b', L.setInitialPosition g b = .ok M ∧ Session E F M ∧ M.games = L.games ∧
      M.getSetupAndMoves g = .ok (b', ms) ∧ ReachableBoard n b' ∧ b'.pos = b.pos ∧
      (∀ o' g', L.games[o']? = some g' → o' ≠ o → M.mainSequence g' = L.mainSequence g') := by
  obtain ⟨a1, a2, a3, a4, a5⟩ := game_root hF hs hg
  have hon : ∀ p ∈ stonesOf b .b ++ stonesOf b .w, Go.OnBoard n p := by
    intro p hp
    rw [List.mem_append, mem_stonesOf hb, mem_stonesOf hb] at hp
    by_contra hno
    rw [← hb.inv.side] at hno
    rw [pos_off hb.inv.wf hno] at hp
    simp at hp
  have hon' : ∀ p ∈ stonesOf b .b ++ stonesOf b .w ++ [], OnBoard g.presenter.size p := by
    intro p hp
    rw [hn]
    exact onBoard_int.2 (hon p (by simpa using hp))
  obtain ⟨s1, ⟨bp, wp, ep, s2, s3, s4, s5, s6, s7, s8⟩, s9⟩ := C51_set_setup g.presenter hT a4 (by omega) (L.heap.props g.root) (stonesOf b .b) (stonesOf b .w) [] hon'
  have hep : ep = [] := by
    cases ep with
    | nil => rfl
    | cons p _ => exact absurd ((s5 p).1 (by simp)) (by simp)
  subst hep
  have hu := update_eq (L := L) (g := g) (n := g.root) (f := fun P m => Sgf.setInitialPosition P m b) s1
  have hnil : ∀ l l' : List Pt, SameSet l l' → (l = [] ↔ l' = []) := by
    intro l l' h
    constructor
    · rintro rfl
      cases l' with
      | nil => rfl
      | cons p _ => exact absurd ((h p).2 (by simp)) (by simp)
    · rintro rfl
      cases l with
      | nil => rfl
      | cons p _ => exact absurd ((h p).1 (by simp)) (by simp)
  have hpos : Go.setupPos (fun _ => none) bp wp [] = b.pos := by
    funext q
    unfold Go.setupPos
    rw [if_neg (by simp)]
    have m1 := mem_stonesOf hb .b q
    have m2 := mem_stonesOf hb .w q
    have k1 := s3 q
    have k2 := s4 q
    by_cases hw : q ∈ wp
    · rw [if_pos hw, m2.1 (k2.1 hw)]
    · rw [if_neg hw]
      by_cases hbk : q ∈ bp
      · rw [if_pos hbk, m1.1 (k1.1 hbk)]
      · rw [if_neg hbk]
        cases hq : b.pos q with
        | none => rfl
        | some d =>
          cases d with
          | b => exact absurd (k1.2 (m1.2 hq)) hbk
          | w => exact absurd (k2.2 (m2.2 hq)) hw
  obtain ⟨b', r1, r2, r3⟩ := setup_read (root := (Sgf.setInitialPosition g.presenter (L.heap.props g.root) b).1) (l := (L.mainSequence g).tail) h2
    (by unfold Sgf.setInitialPosition; rw [setup_frame]; exact hr)
    (by rw [← hn]; exact moves_below hr hm) (bp := bp) (wp := wp) (by rw [← hn]; exact s2)
    (by
      unfold Sgf.setInitialPosition
      rw [s9]
      have h1 := hnil _ _ s3
      have h2 := hnil _ _ s4
      simp only [List.append_nil, ne_eq, List.append_eq_nil_iff, h1, h2])
    (by
      intro p hp
      refine hon p ?_
      rw [List.mem_append] at hp ⊢
      rwa [← s3 p, ← s4 p])
    (by rw [hpos]; exact C05_reachable_legal hb)
  refine ⟨_, b', hu, update_session hs hg a1 a2 (.setSetupStones (stonesOf b .b) (stonesOf b .w) []) (fun _ _ => rfl) hu, rfl, ?_, r2, ?_, ?_⟩
  · unfold Lib.getSetupAndMoves
    rw [mainSequence_root hF hs hg hu, hn]
    exact r1
  · rw [r3, hpos]
  · intro o' g' hg' hne
    exact mainSequence_other hF hs hg' a1 (by rw [a2]; exact fun e => hne e.symm) hu

/-! ### After writing and reading -/

theorem corresponds_leftmost {R : PropMap → PropMap → Prop} {t t' : NTree PropMap} (h : Corresponds R t t') : List.Forall₂ R t.leftmost t'.leftmost := by
  induction h with
  | @mk p p' ts ts' h1 h2 h3 ih =>
    cases ts with
    | nil =>
      cases ts' with
      | nil => exact .cons h1 .nil
      | cons _ _ => simp at h2
    | cons t ts =>
      cases ts' with
      | nil => simp at h2
      | cons t' ts' => exact .cons h1 (ih 0 (by simp) (by simp))

theorem libMain_leftmost {L : Lib} {o : Nat} {g : GameRec} {t : NTree PropMap} (h : HasTree L o g t) : L.mainSequence g = t.leftmost := by
  obtain ⟨ids, h1, h2⟩ := h
  have := C23_main_sequence h1 h2
  unfold Lib.mainSequence
  have e : ∀ l : List Nat, ∀ k : List PropMap, l.map (fun j => (L.heap[j]?).map NodeRec.props) = k.map some → l.map L.heap.props = k := by
    intro l
    induction l with
    | nil => intro k hk; cases k with
      | nil => rfl
      | cons _ _ => simp at hk
    | cons i l ih =>
      intro k hk
      cases k with
      | nil => simp at hk
      | cons p k =>
        simp only [List.map_cons, List.cons.injEq] at hk ⊢
        refine ⟨?_, ih k hk.2⟩
        unfold Heap.props
        cases hr : L.heap[i]? with
        | none => rw [hr] at hk; simp at hk
        | some r => rw [hr] at hk; simpa using hk.1
  exact e _ _ this

/-- C54: what get_setup_and_moves gives doesn't change when a game is written to an SGF file and loaded again. -/
theorem C54_round_trip (hF : ∀ q, ∀ c ∈ F.repr q, c ≠ ']' ∧ c ≠ '\\') (hN : NamesOK E) {L : Lib} (hs : Session E F L)
    {o : Nat} {g : GameRec} (hg : L.games[o]? = some g) (hca : g.presenter.lookupType ['C', 'A'] = some .simpletext)
    (hd : Declares E (L.heap.props g.root) g.encoding) (hC : AsciiCompatible (E.codec g.encoding)) (wrap : Option Int) :
    ∃ s, L.serialise E g wrap = .ok s ∧
      ∀ M : Lib, ∃ M' g', M.fromString E F s none = .ok M' ∧ M'.games = M.games ++ [g'] ∧
        g'.presenter = Presenter.new g.presenter.size (E.codec g.encoding) F ∧
        List.Forall₂ SameMap (L.mainSequence g) (M'.mainSequence g') ∧
        M'.getSetupAndMoves g' = L.getSetupAndMoves g := by
  obtain ⟨t, s, h1, h2, h3⟩ := C52_round_trip hF hN hs hg hca hd hC wrap
  refine ⟨s, h2, ?_⟩
  intro M
  obtain ⟨M', g', t', m1, m2, m3, m4, m5, m6, m7⟩ := h3 M
  have hsame : List.Forall₂ SameMap (L.mainSequence g) (M'.mainSequence g') := by
    rw [libMain_leftmost h1, libMain_leftmost m5]
    exact corresponds_leftmost m6
  refine ⟨M', g', m1, m2, m4, hsame, ?_⟩
  unfold Lib.getSetupAndMoves
  have : g'.presenter.size = g.presenter.size := by rw [m4]; rfl
  rw [this]
  exact (getSetupAndMoves_congr _ (hsame.imp (fun _ _ => sameMoves_of_same))).symm

/-! ### indicate_first_player -/

/-- Who moves first, according to the root node: as the PL property says; without one, White in a handicap game and Black
in others. -/
def FirstToPlay (P : Presenter) (root : PropMap) (c : Colour) : Prop :=
  match lookup root ['P', 'L'] with
  | some _ => nodeGet P root ['P', 'L'] = .ok (.colour c)
  | none => c = match lookup root ['H', 'A'] with
    | some _ => Colour.w
    | none => Colour.b

theorem nodeSet_colour (P : Presenter) (hT : StandardTypes P) (m : PropMap) (c : Colour) :
    nodeSet P m ['P', 'L'] (.colour c) = (m.assign ['P', 'L'] [serialiseColour c], .ok ()) := by
  unfold nodeSet Presenter.serialise
  rw [effectiveType_of hT.pl]
  have : isValidIdent ['P', 'L'] = true := by decide
  simp [this, Presenter.serialiseAs, bind, Except.bind, setRawListUnchecked]

/-- C54: when the first child of the root has a move (by `c`), and there is no PL property yet, `indicate_first_player`
makes the root node say that `c` moves first, changing no other property. If there are setup stones other than a handicap's,
there is a PL property. -/
theorem C54_first_player (hF : ∀ q, ∀ c ∈ F.repr q, c ≠ ']' ∧ c ≠ '\\') {L : Lib} (hs : Session E F L) {o : Nat} {g : GameRec} (hg : L.games[o]? = some g)
    (hT : StandardTypes g.presenter) {root m : PropMap} {l : List PropMap} (hseq : L.mainSequence g = root :: m :: l) {c : Colour} {mv : Option Pt}
    (hm : getMove m g.presenter.size = .ok (some (c, mv))) (hpl : lookup root ['P', 'L'] = none) :
    ∃ M root', L.indicateFirstPlayer g = .ok M ∧ Session E F M ∧ M.games = L.games ∧ M.mainSequence g = root' :: m :: l ∧
      FirstToPlay g.presenter root' c ∧ (∀ k, k ≠ ['P', 'L'] → lookup root' k = lookup root k) ∧
      ((lookup root ['A', 'W']).isSome ∨ ((lookup root ['A', 'B']).isSome ∧ lookup root ['H', 'A'] = none) → (lookup root' ['P', 'L']).isSome) ∧
      M.getSetupAndMoves g = L.getSetupAndMoves g ∧
      (∀ o' g', L.games[o']? = some g' → o' ≠ o → M.mainSequence g' = L.mainSequence g') := by
  obtain ⟨a1, a2, a3, a4, a5⟩ := game_root hF hs hg
  have hroot : L.heap.props g.root = root := by rw [mainSequence_cons] at hseq; exact (List.cons.inj hseq).1
  have hchild : ∃ rest, (L.heap.children g.root).map L.heap.props = m :: rest := by
    obtain ⟨h1, _, _, _⟩ := C23_navigation (session_inv hF hs).edited g.root a1
    have hseq' := hseq
    rw [mainSequence_cons] at hseq'
    have htl := (List.cons.inj hseq').2
    clear hseq hseq'
    have hgm : getMainSequence L.heap g.root = g.root :: (getMainSequence L.heap g.root).tail := rfl
    generalize (getMainSequence L.heap g.root).tail = tl at *
    rw [hgm] at h1
    cases h1 with
    | leaf _ => cases htl
    | step e _ =>
      rw [List.map_cons, List.cons.injEq] at htl
      cases hc : L.heap.children g.root with
      | nil => rw [hc] at e; cases e
      | cons a as =>
        rw [hc] at e
        cases e
        exact ⟨as.map L.heap.props, by rw [List.map_cons, htl.1]⟩
  obtain ⟨rest, hrest⟩ := hchild
  have hset : nodeSet g.presenter root ['P', 'L'] (.colour c) = (root.assign ['P', 'L'] [serialiseColour c], .ok ()) := nodeSet_colour _ hT _ _
  -- the update
  have hval : Sgf.indicateFirstPlayer g.presenter root ((L.heap.children g.root).map L.heap.props) =
      if specifyPL root c then (root.assign ['P', 'L'] [serialiseColour c], .ok ()) else (root, .ok ()) := by
    rw [hrest]
    unfold Sgf.indicateFirstPlayer
    simp only [hm]
    rw [hset]
  have hu := update_eq (L := L) (g := g) (n := g.root)
    (f := fun P m => Sgf.indicateFirstPlayer P m ((L.heap.children g.root).map L.heap.props)) (by
      rw [hroot, hval]; split <;> rfl)
  have hmain := mainSequence_root hF hs hg hu
  simp only [hroot, hval] at hu hmain
  rw [hseq, List.tail_cons] at hmain
  have hhas : ∀ k, root.has k = (lookup root k).isSome := by intro k; unfold PropMap.has; rw [find_eq_lookup]
  have hframe : ∀ k, k ≠ ['P', 'L'] → lookup (if specifyPL root c then (root.assign ['P', 'L'] [serialiseColour c], (.ok () : Except Exc Unit)) else (root, .ok ())).1 k = lookup root k := by
    intro k hk
    split
    · rw [lookup_assign, if_neg hk]
    · rfl
  refine ⟨_, _, hu, ?_, rfl, hmain, ?_, hframe, ?_, ?_, ?_⟩
  · -- the session
    by_cases hsp : specifyPL root c = true
    · have hu' := update_eq (L := L) (g := g) (n := g.root) (f := fun P m => nodeSet P m ['P', 'L'] (.colour c)) (by
        rw [hroot, hset])
      have := update_session hs hg a1 a2 (.set ['P', 'L'] (.colour c)) (fun _ _ => rfl) hu'
      simp only [hroot, hset] at this
      simp only [if_pos hsp]
      exact this
    · simp only [if_neg hsp]
      have : (L.heap.modify g.root fun r => { r with props := root }) = L.heap := by
        rw [← hroot]
        have := modify_congr (h := L.heap) (n := g.root) (fun x => x)
        rw [this]
        apply List.ext_getElem?
        intro i
        rw [List.getElem?_modify]
        cases L.heap[i]? <;> simp
      rw [this]
      exact hs
  · unfold FirstToPlay
    by_cases hsp : specifyPL root c = true
    · rw [if_pos hsp]
      simp only
      rw [lookup_assign, if_pos rfl]
      simp only
      unfold nodeGet PropMap.item Presenter.interpret
      rw [find_eq_lookup, lookup_assign, if_pos rfl, effectiveType_of hT.pl]
      cases c <;> rfl
    · rw [if_neg hsp]
      simp only [hpl]
      unfold specifyPL at hsp
      simp only [hhas] at hsp
      cases h1 : lookup root ['H', 'A'] <;> cases h2 : lookup root ['A', 'W'] <;> cases h3 : lookup root ['A', 'B'] <;> cases c <;> simp_all
  · intro hst
    have hsp : specifyPL root c = true := by
      unfold specifyPL
      simp only [hhas]
      rcases hst with h1 | ⟨h1, h2⟩
      · rw [h1]; simp
      · rw [h1, h2]; cases (lookup root ['A', 'W']).isSome <;> simp
    rw [if_pos hsp]
    simp only
    rw [lookup_assign, if_pos rfl]
    rfl
  · unfold Lib.getSetupAndMoves
    refine (getSetupAndMoves_congr _ (mainSequence_sameMoves a1 hu ?_)).symm
    intro k hk
    rw [find_eq_lookup, find_eq_lookup]
    simp only [hroot, hval]
    refine (hframe k ?_).symm
    rintro rfl
    revert hk
    decide
  · intro o' g' hg' hne
    exact mainSequence_other hF hs hg' a1 (by rw [a2]; exact fun e => hne e.symm) hu

/-! ### witness -/

/-- A position with a stone of each colour. -/
def exampleBoard : Board := match Board.init 9 with
  | .ok b => match b.applySetup [(2, 2)] [(6, 6)] [] with
    | .ok (_, b) => b
    | .error _ => b
  | .error _ => ⟨0, [], true⟩

/-- Record a position and two moves. -/
def exampleRecord : Except Exc Lib := do
  let L ← exampleLib0.setInitialPosition exampleGame exampleBoard
  let L ← L.addMove exampleGame .w (some (4, 4))
  let L ← L.addMove exampleGame .b none
  L.indicateFirstPlayer exampleGame

/-- C54: non-vacuity. -/
theorem C54_witness : Session exampleEncodings noFloats exampleLib0 ∧ exampleLib0.games[0]? = some exampleGame ∧
    StandardTypes exampleGame.presenter ∧ ReachableBoard 9 exampleBoard ∧ (exampleBoard.pos (2, 2), exampleBoard.pos (6, 6)) = (some .b, some .w) ∧
    getRawMove (exampleLib0.heap.props exampleGame.root) = .ok none ∧
    (exampleLib0.getSetupAndMoves exampleGame).map (·.2) = .ok [] ∧
    (exampleRecord.bind (fun L => L.getSetupAndMoves exampleGame)).map (fun r => (r.1.listOccupiedPoints, r.2)) =
      .ok ([(.b, (2, 2)), (.w, (6, 6))], [(.w, some (4, 4)), (.b, none)]) ∧
    exampleRecord.map (fun L => lookup (L.heap.props 0) ['P', 'L']) = .ok (some [['W']]) := by
  refine ⟨.step .start (.newGame (size := 9) (encoding := "UTF-8".toList) rfl), rfl, C50_standard _ _ _, ?_, by decide +kernel, by decide +kernel,
    by decide +kernel, by decide +kernel, by decide +kernel⟩
  obtain ⟨b0, hb0⟩ : ∃ b0, Board.init 9 = .ok b0 := ⟨_, rfl⟩
  refine ⟨b0, [.setup defaultPops [(2, 2)] [(6, 6)] []], hb0, ?_⟩
  unfold exampleBoard Board.applySetup
  rw [hb0]
  rfl

end Gomill.Sgf
