import Verif.Lemmas.BoardSetup
/-
C05-C11: properties of gomill/boards.py.

`b.pos` is the position a user sees through `b.get`.  The rules of go are in `Verif.Spec.Go`.
-/
namespace Gomill
open Py Go

/-- Calls a user can make which change a board; each with an arbitrary pop order for Python's sets. -/
inductive BoardOp where
  | play (o : Pops) (row col : Int) (c : Colour)
  | setup (o : Pops) (black white empty : List Pt)

/-- Make the call; when it raises, the board is unchanged. -/
def stepBoard (b : Board) : BoardOp → Board
  | .play o r c col => match b.playWith o r c col with
    | .ok (_, b') => b'
    | .error _ => b
  | .setup o bl wh em => match b.applySetupWith o bl wh em with
    | .ok (_, b') => b'
    | .error _ => b

/-- `b` is a board of size `n` obtained from a new board by any sequence of calls. -/
def ReachableBoard (n : Nat) (b : Board) : Prop :=
  ∃ (b0 : Board) (ops : List BoardOp), Board.init n = .ok b0 ∧ b = ops.foldl stepBoard b0

structure BoardInv (n : Nat) (b : Board) : Prop where
  side : b.side = n
  wf : b.WF
  legal : Legal n b.pos
  flag : b.emptyFlag = true ↔ ∀ q, b.pos q = none

theorem boardInv_init {n : Nat} {b : Board} (h : Board.init n = .ok b) : BoardInv n b := by
  obtain ⟨_, h1, h2, h3, h4⟩ := init_spec h
  refine ⟨h1, h2, ?_, ?_⟩
  · intro p _ hne; rw [h4] at hne; exact absurd rfl hne
  · simp [h3, h4]

theorem boardInv_play {n : Nat} {b b' : Board} (hi : BoardInv n b) {o : Pops} {r c : Int} {col : Colour} {ko : Option Pt}
    (h : b.playWith o r c col = .ok (ko, b')) : BoardInv n b' := by
  by_cases hp : OnBoard b.side (r, c)
  · by_cases he : b.pos (r, c) = none
    · have hl := hi.legal
      rw [← hi.side] at hl
      obtain ⟨ko', b2, h1, h2, h3, h4, h5, _⟩ := playWith_spec hi.wf o col hl hp he
      rw [h] at h1
      cases h1
      refine ⟨h2.trans hi.side, h3, ?_, h5⟩
      rw [h4, ← hi.side]
      exact rulesPlay_legal hl hp he
    · have := playWith_occupied hi.wf o col hp he
      rw [h] at this; simp at this
  · have := playWith_off hi.wf o col hp
    rw [h] at this; simp at this

theorem boardInv_setup {n : Nat} {b b' : Board} (hi : BoardInv n b) {o : Pops} {bl wh em : List Pt} {lg : Bool}
    (h : b.applySetupWith o bl wh em = .ok (lg, b')) : BoardInv n b' := by
  by_cases hr : ∀ p ∈ bl ++ wh ++ em, OnBoard b.side p
  · obtain ⟨lg', b2, h1, h2, h3, h4, h5, h6⟩ := applySetupWith_spec hi.wf o hr
    rw [h] at h1
    cases h1
    refine ⟨h2.trans hi.side, h3, ?_, h6⟩
    rw [h5, ← hi.side]
    exact remove_all_dead_legal
  · have := applySetupWith_off o hr
    rw [h] at this; simp at this

theorem boardInv_step {n : Nat} {b : Board} (hi : BoardInv n b) (op : BoardOp) : BoardInv n (stepBoard b op) := by
  cases op with
  | play o r c col =>
    unfold stepBoard
    rcases h : b.playWith o r c col with _ | ⟨ko, b'⟩
    · simpa [h] using hi
    · simpa [h] using boardInv_play hi h
  | setup o bl wh em =>
    unfold stepBoard
    rcases h : b.applySetupWith o bl wh em with _ | ⟨ko, b'⟩
    · simpa [h] using hi
    · simpa [h] using boardInv_setup hi h

theorem ReachableBoard.inv {n : Nat} {b : Board} (h : ReachableBoard n b) : BoardInv n b := by
  obtain ⟨b0, ops, h0, rfl⟩ := h
  have := boardInv_init h0
  clear h0
  induction ops generalizing b0 with
  | nil => exact this
  | cons op ops ih => exact ih _ (boardInv_step this op)

/-! ## C05 -/

/-- C05: after any sequence of calls every group on the board has a liberty. -/
theorem C05_reachable_legal {n : Nat} {b : Board} (h : ReachableBoard n b) : Legal n b.pos := h.inv.legal

/-- C05 (and non-vacuity of the theorems about reachable boards): conversely, every legal position is reachable, for
every size from 2. -/
theorem C05_legal_reachable (n : Nat) (hn : 2 ≤ n) (pos : Position) (hl : Legal n pos) :
    ∃ b, ReachableBoard n b ∧ ∀ p, OnBoard n p → b.pos p = pos p := by
  have hinit : ∃ b0, Board.init n = .ok b0 := by
    unfold Board.init; rw [if_neg (by omega)]; exact ⟨_, rfl⟩
  obtain ⟨b0, hb0⟩ := hinit
  obtain ⟨_, h1, h2, h3, h4⟩ := init_spec hb0
  let bl := (boardPoints n).filter (fun p => pos p = some .b)
  let wh := (boardPoints n).filter (fun p => pos p = some .w)
  have hr : ∀ p ∈ bl ++ wh ++ [], OnBoard b0.side p := by
    intro p hp
    rw [h1]
    simp only [List.append_nil, List.mem_append, bl, wh, List.mem_filter] at hp
    rcases hp with hp | hp <;> exact mem_boardPoints.1 hp.1
  obtain ⟨lg, b', e1, e2, e3, e4, e5, e6⟩ := applySetupWith_spec h2 defaultPops hr
  have hpos : ∀ p, OnBoard n p → setupPos b0.pos bl wh [] p = pos p := by
    intro p hp
    have hbp := mem_boardPoints.2 hp
    simp only [setupPos, bl, wh, List.mem_filter, hbp, true_and, decide_eq_true_eq, List.not_mem_nil, if_false, h4]
    rcases hx : pos p with _ | _ | _ <;> simp
  refine ⟨b', ⟨b0, [.setup defaultPops bl wh []], hb0, ?_⟩, ?_⟩
  · simp [stepBoard, e1]
  · intro p hp
    rw [e5, remove_of_not, hpos p hp]
    rintro ⟨_, hne, hnl⟩
    rw [h1] at hnl
    have := (Legal.congr_pos (n := n) (pos := pos) (pos' := setupPos b0.pos bl wh []) hpos).1 hl
    exact hnl (this p hp hne)

/-! ## C06 -/

/-- C06: a play at an empty point of the board succeeds and has exactly the effect the rules of go prescribe. -/
theorem C06_play_follows_rules {n : Nat} {b : Board} (h : ReachableBoard n b) (o : Pops) (p : Pt) (c : Colour)
    (hp : OnBoard n p) (he : b.pos p = none) :
    ∃ ko b', b.playWith o p.1 p.2 c = .ok (ko, b') ∧ b'.pos = rulesPlay n b.pos p c := by
  have hi := h.inv
  have hl := hi.legal
  rw [← hi.side] at hl hp ⊢
  obtain ⟨ko, b', h1, _, _, h4, _⟩ := playWith_spec hi.wf o c hl hp he
  exact ⟨ko, b', h1, h4⟩

/-- C06: otherwise it raises the documented exception (the board is then unchanged: see `Board.playWith`). -/
theorem C06_play_errors {n : Nat} {b : Board} (h : ReachableBoard n b) (o : Pops) (p : Pt) (c : Colour) :
    (¬ OnBoard n p → b.playWith o p.1 p.2 c = .error .indexError) ∧
    (OnBoard n p → b.pos p ≠ none → b.playWith o p.1 p.2 c = .error .valueError) := by
  have hi := h.inv
  rw [← hi.side]
  exact ⟨playWith_off hi.wf o c, playWith_occupied hi.wf o c⟩

/-! ## C07 -/

/-- C07: `play` returns a point exactly when it is a simple-ko point in the sense of the specification. -/
theorem C07_simple_ko {n : Nat} {b b' : Board} (h : ReachableBoard n b) (o : Pops) (p : Pt) (c : Colour)
    (ko : Option Pt) (hplay : b.playWith o p.1 p.2 c = .ok (ko, b')) (k : Pt) :
    ko = some k ↔ KoPoint n b.pos b'.pos p c k := by
  have hi := h.inv
  have hl := hi.legal
  rw [← hi.side] at hl ⊢
  by_cases hp : OnBoard b.side p
  · by_cases he : b.pos p = none
    · obtain ⟨ko', b2, h1, _, _, _, _, h6⟩ := playWith_spec hi.wf o c hl hp he
      rw [hplay] at h1
      cases h1
      exact h6 k
    · have := playWith_occupied hi.wf o c hp he
      rw [hplay] at this; simp at this
  · have := playWith_off hi.wf o c hp
    rw [hplay] at this; simp at this

/-- C07: what the ko rule is for: taking back at the returned point at once would recreate the previous position. -/
theorem C07_ko_repeats {n : Nat} {b b' b'' : Board} (h : ReachableBoard n b) (o o' : Pops) (p k : Pt) (c : Colour)
    (ko : Option Pt)
    (hplay : b.playWith o p.1 p.2 c = .ok (some k, b'))
    (hplay2 : b'.playWith o' k.1 k.2 c.opponent = .ok (ko, b'')) : b''.pos = b.pos := by
  have hi := h.inv
  have hl := hi.legal
  have hk := (C07_simple_ko h o p c _ hplay k).1 rfl
  have hp : OnBoard n p := by
    apply Classical.byContradiction
    intro hp; rw [← hi.side] at hp
    have := playWith_off hi.wf o c hp
    rw [hplay] at this; simp at this
  have he : b.pos p = none := by
    apply Classical.byContradiction
    intro he
    have := playWith_occupied hi.wf o c (by rw [hi.side]; exact hp) he
    rw [hplay] at this; simp at this
  have hi' := boardInv_play hi hplay
  have hpos' : b'.pos = rulesPlay n b.pos p c := by
    obtain ⟨_, _, h1, h2⟩ := C06_play_follows_rules h o p c hp he
    rw [hplay] at h1; cases h1; exact h2
  rw [hpos'] at hk
  obtain ⟨d1, d2⟩ := koPoint_dead hp he hl hk
  have hkd := (d1 k).2 rfl
  have hkn : OnBoard n k := hkd.1
  have hkp : k ≠ p := by
    rintro rfl
    have := hkd.2.1; rw [put_same] at this
    exact opponent_ne c (Option.some.inj this).symm
  have hbk : b.pos k = some c.opponent := by
    have := hkd.2.1; rwa [put_other _ hkp] at this
  have hex : ∃ q, Dead n (put b.pos p (some c)) c.opponent q := ⟨k, hkd⟩
  have hr := rulesPlay_of_opp hex
  have hput : put b'.pos k (some c.opponent) = put b.pos p (some c) := by
    rw [hpos', hr]
    funext q
    by_cases hq : q = k
    · subst hq; rw [put_same, put_other _ hkp, hbk]
    · rw [put_other _ hq, remove_of_not]
      intro hd; exact hq ((d1 q).1 hd)
  have hek : b'.pos k = none := by rw [hpos', hr]; exact remove_of hkd
  have hopp : c.opponent.opponent = c := by cases c <;> rfl
  have hl' : Legal b'.side b'.pos := by rw [hi'.side]; exact hi'.legal
  obtain ⟨_, _, h1, _, _, h4, _⟩ := playWith_spec hi'.wf o' c.opponent hl' (by rw [hi'.side]; exact hkn) hek
  rw [hplay2] at h1; cases h1
  rw [h4, hi'.side, rulesPlay_of_opp, hput, hopp]
  · funext q
    by_cases hq : q = p
    · subst hq; rw [remove_of ((d2 q).2 rfl), he]
    · rw [remove_of_not (fun hd => hq ((d2 q).1 hd)), put_other _ hq]
  · rw [hput, hopp]; exact ⟨p, (d2 p).2 rfl⟩

/-- Non-vacuity: a 3×3 ko. -/
example : ∃ b b', ReachableBoard 3 b ∧ b.playWith defaultPops 0 0 .w = .ok (some (0, 1), b') := by
  refine ⟨_, ⟨3, [[some .w, none, some .w], [some .b, some .w, none], [none, none, none]], false⟩,
    ⟨⟨3, List.replicate 3 (List.replicate 3 none), true⟩,
      [.setup defaultPops [(0,1), (1,0)] [(1,1), (0,2)] []], rfl, rfl⟩, ?_⟩
  decide

/-! ## C08 -/

/-- C08: `is_empty` is right after any history. -/
theorem C08_is_empty {n : Nat} {b : Board} (h : ReachableBoard n b) :
    b.isEmpty = true ↔ ∀ p, OnBoard n p → b.pos p = none := by
  have hi := h.inv
  unfold Board.isEmpty
  rw [hi.flag]
  constructor
  · intro h p _; exact h p
  · intro h p
    by_cases hp : OnBoard n p
    · exact h p hp
    · rw [← hi.side] at hp; exact pos_off hi.wf hp

/-- Non-vacuity: filling a 2×2 board with one colour empties it by self-capture. -/
example : ((((Board.init 2).toOption.get rfl) |> fun b =>
    [BoardOp.play defaultPops 0 0 .b, .play defaultPops 0 1 .b, .play defaultPops 1 0 .b,
     .play defaultPops 1 1 .b].foldl stepBoard b).isEmpty) = true := by decide

/-! ## C09 -/

/-- C09: `apply_setup` with all points on the board. -/
theorem C09_apply_setup {n : Nat} {b : Board} (h : ReachableBoard n b) (o : Pops) (black white empty : List Pt)
    (hr : ∀ p ∈ black ++ white ++ empty, OnBoard n p) :
    ∃ ok b', b.applySetupWith o black white empty = .ok (ok, b') ∧
      (ok = true ↔ Legal n (setupPos b.pos black white empty)) ∧
      b'.pos = remove (setupPos b.pos black white empty) (fun q =>
        ∃ c, Dead n (setupPos b.pos black white empty) c q) ∧
      Legal n b'.pos := by
  have hi := h.inv
  rw [← hi.side] at hr ⊢
  obtain ⟨lg, b', e1, e2, e3, e4, e5, e6⟩ := applySetupWith_spec hi.wf o hr
  refine ⟨lg, b', e1, e4, ?_, ?_⟩
  · rw [e5]
    apply remove_congr
    intro q
    unfold Dead
    constructor
    · rintro ⟨h1, h2, h3⟩
      obtain ⟨c, hc⟩ := Option.ne_none_iff_exists'.1 h2
      exact ⟨c, h1, hc, h3⟩
    · rintro ⟨c, h1, h2, h3⟩
      exact ⟨h1, by rw [h2]; simp, h3⟩
  · rw [e5]; exact remove_all_dead_legal

/-- C09: a coordinate out of range gives IndexError (and the board is unchanged). -/
theorem C09_apply_setup_range {n : Nat} {b : Board} (h : ReachableBoard n b) (o : Pops)
    (black white empty : List Pt) (hr : ∃ p ∈ black ++ white ++ empty, ¬ OnBoard n p) :
    b.applySetupWith o black white empty = .error .indexError := by
  obtain ⟨p, hp, hn⟩ := hr
  rw [← h.inv.side] at hn
  exact applySetupWith_off o (fun hc => hn (hc p hp))

/-- Non-vacuity: an illegal setup. -/
example : (((Board.init 2).toOption.get rfl).applySetup [(0,1), (1,0)] [(0,0)] []).map Prod.fst = .ok false := by
  decide

/-! ## C10 -/

/-- C10: the area score is the number of points counting for Black minus the number counting for White. -/
theorem C10_area_score {n : Nat} {b : Board} (h : ReachableBoard n b) (o : Pops) :
    b.areaScoreWith o =
      ({q | OnBoard n q ∧ CountsFor n b.pos .b q}.ncard : Int) -
      ({q | OnBoard n q ∧ CountsFor n b.pos .w q}.ncard : Int) := by
  rw [← h.inv.side]
  exact areaScoreWith_spec h.inv.wf o

/-- C10: exchanging the colours of all the stones negates the score. -/
theorem C10_area_score_antisymmetric {n : Nat} {b b' : Board} (h : ReachableBoard n b) (h' : ReachableBoard n b')
    (hsw : ∀ p, OnBoard n p → b'.pos p = (b.pos p).map Colour.opponent) (o o' : Pops) :
    b'.areaScoreWith o' = - b.areaScoreWith o := by
  have hmap : ∀ x y : Option Colour, x.map Colour.opponent = y.map Colour.opponent ↔ x = y := by
    intro x y
    rcases x with _ | _ | _ <;> rcases y with _ | _ | _ <;> simp [Colour.opponent]
  have hconn : ∀ p q, OnBoard n p → (Conn n b'.pos p q ↔ Conn n b.pos p q) := by
    intro p q hp
    constructor
    · intro hc
      induction hc with
      | refl => exact .refl
      | step _ ha hb hpos ih =>
        rw [hsw _ hb, hsw _ hp, hmap] at hpos
        exact .step ih ha hb hpos
    · intro hc
      induction hc with
      | refl => exact .refl
      | step _ ha hb hpos ih =>
        refine .step ih ha hb ?_
        rw [hsw _ hb, hsw _ hp, hmap]; exact hpos
  have hcf : ∀ c : Colour, {q | OnBoard n q ∧ CountsFor n b'.pos c q} = {q | OnBoard n q ∧ CountsFor n b.pos c.opponent q} := by
    intro c
    have hmc : ∀ x : Option Colour, x.map Colour.opponent = some c ↔ x = some c.opponent := by
      intro x; rcases x with _ | _ | _ <;> cases c <;> simp [Colour.opponent]
    ext q
    simp only [Set.mem_setOf_eq]
    constructor
    · rintro ⟨hq, hc⟩
      refine ⟨hq, ?_⟩
      rcases hc with hc | ⟨hc, x, y, h1, h2, h3, h4⟩
      · left; rwa [hsw q hq, hmc] at hc
      · right
        refine ⟨by rw [hsw q hq] at hc; simpa using hc, x, y, (hconn q x hq).1 h1, h2, h3, ?_⟩
        rwa [hsw y h3, hmc] at h4
    · rintro ⟨hq, hc⟩
      refine ⟨hq, ?_⟩
      rcases hc with hc | ⟨hc, x, y, h1, h2, h3, h4⟩
      · left; rw [hsw q hq, hmc]; exact hc
      · right
        refine ⟨by rw [hsw q hq]; simpa using hc, x, y, (hconn q x hq).2 h1, h2, h3, ?_⟩
        rw [hsw y h3, hmc]; exact h4
  rw [C10_area_score h, C10_area_score h', hcf, hcf]
  simp only [Colour.opponent]
  omega

/-- Non-vacuity: an area score with a shared (dame) region counted for both. -/
example : ((((Board.init 3).toOption.get rfl).applySetup [(0,0), (0,1)] [(2,2)] []).toOption.map
    (fun r => r.2.areaScore)) = some 1 := by decide

/-! ## C11 -/

/-- C11: the group found from a stone is its connected component, whatever order the work set is popped in; and it is
reported surrounded exactly if it has no liberty. -/
theorem C11_group_is_component {n : Nat} {b : Board} (h : ReachableBoard n b) (o : Pops) (p : Pt) (c : Colour)
    (hp : OnBoard n p) (hc : b.pos p = some c) :
    (b.makeGroup o p c).points.Nodup ∧
    (∀ q, q ∈ (b.makeGroup o p c).points ↔ Conn n b.pos p q) ∧
    ((b.makeGroup o p c).surrounded = true ↔ ¬ HasLiberty n b.pos p) := by
  rw [← h.inv.side] at *
  exact (makeGroup_spec h.inv.wf o hp hc).2

/-- C11: likewise for empty regions. -/
theorem C11_region_is_component {n : Nat} {b : Board} (h : ReachableBoard n b) (o : Pops) (p : Pt)
    (hp : OnBoard n p) (hc : b.pos p = none) :
    (b.makeEmptyRegion o p).points.Nodup ∧
    (∀ q, q ∈ (b.makeEmptyRegion o p).points ↔ Conn n b.pos p q) ∧
    (∀ d, d ∈ (b.makeEmptyRegion o p).colours ↔ Borders n b.pos p (some d)) := by
  rw [← h.inv.side] at *
  exact makeEmptyRegion_spec h.inv.wf o hp hc

/-- C11: the result of `play` (board, ko point or exception) doesn't depend on the pop order. -/
theorem C11_play_pop_order {n : Nat} {b : Board} (h : ReachableBoard n b) (o o' : Pops) (row col : Int) (c : Colour) :
    b.playWith o row col c = b.playWith o' row col c := by
  have hi := h.inv
  have hl := hi.legal
  rw [← hi.side] at hl
  by_cases hp : OnBoard b.side (row, col)
  · by_cases he : b.pos (row, col) = none
    · obtain ⟨k1, b1, e1, s1, w1, p1, f1, q1⟩ := playWith_spec hi.wf o c hl hp he
      obtain ⟨k2, b2, e2, s2, w2, p2, f2, q2⟩ := playWith_spec hi.wf o' c hl hp he
      simp only at e1 e2
      rw [e1, e2]
      have hb : b1 = b2 := by
        refine board_ext w1 w2 (s1.trans s2.symm) ?_ (fun p _ => by rw [p1, p2])
        rw [Bool.eq_iff_iff, f1, f2, p1, p2]
      subst hb
      have hk : k1 = k2 := by
        apply Option.ext
        intro k
        rw [q1, q2]
      rw [hk]
    · rw [playWith_occupied hi.wf o c hp he, playWith_occupied hi.wf o' c hp he]
  · rw [playWith_off hi.wf o c hp, playWith_off hi.wf o' c hp]

/-- C11: the result of `apply_setup` doesn't depend on the pop order. -/
theorem C11_setup_pop_order {n : Nat} {b : Board} (h : ReachableBoard n b) (o o' : Pops) (bl wh em : List Pt) :
    b.applySetupWith o bl wh em = b.applySetupWith o' bl wh em := by
  have hi := h.inv
  by_cases hr : ∀ p ∈ bl ++ wh ++ em, OnBoard b.side p
  · obtain ⟨l1, b1, e1, s1, w1, q1, p1, f1⟩ := applySetupWith_spec hi.wf o hr
    obtain ⟨l2, b2, e2, s2, w2, q2, p2, f2⟩ := applySetupWith_spec hi.wf o' hr
    rw [e1, e2]
    have hb : b1 = b2 := by
      refine board_ext w1 w2 (s1.trans s2.symm) ?_ (fun p _ => by rw [p1, p2])
      rw [Bool.eq_iff_iff, f1, f2, p1, p2]
    have hlg : l1 = l2 := by rw [Bool.eq_iff_iff, q1, q2]
    rw [hb, hlg]
  · rw [applySetupWith_off o hr, applySetupWith_off o' hr]

/-- C11: nor does the area score. -/
theorem C11_area_pop_order {n : Nat} {b : Board} (h : ReachableBoard n b) (o o' : Pops) :
    b.areaScoreWith o = b.areaScoreWith o' := by
  rw [areaScoreWith_spec h.inv.wf, areaScoreWith_spec h.inv.wf]

/-- Non-vacuity: two different orders on a group of three stones give differently ordered point lists with the same members. -/
example :
    let b := (((Board.init 3).toOption.get rfl).applySetup [(0,0), (0,1), (1,0)] [] []).toOption.get rfl |>.2
    ((b.makeGroup (fun _ _ => 0) (0,0) .b).points.length = 3) ∧
    (b.makeGroup (fun _ k => k) (0,0) .b).points ≠ (b.makeGroup (fun _ _ => 0) (0,0) .b).points := by decide

end Gomill
