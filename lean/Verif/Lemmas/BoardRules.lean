import Mathlib.Data.List.Perm.Subperm
import Verif.Lemmas.BoardPlay
/- `play` follows the rules of go. -/
namespace Gomill
open Py Go

variable {b : Board}

theorem opponent_ne (c : Colour) : c.opponent ≠ c := by cases c <;> simp [Colour.opponent]

theorem eq_opponent_of_ne {c d : Colour} (h : d ≠ c) : d = c.opponent := by
  cases c <;> cases d <;> simp_all [Colour.opponent]

theorem WF.withFlag (h : b.WF) (f : Bool) : ({ b with emptyFlag := f } : Board).WF := ⟨h.len, h.rows⟩

theorem pos_withFlag (f : Bool) : ({ b with emptyFlag := f } : Board).pos = b.pos := rfl

theorem remove_congr {pos : Position} {S T : Pt → Prop} (h : ∀ q, S q ↔ T q) : remove pos S = remove pos T := by
  have : S = T := funext fun q => propext (h q)
  rw [this]

/-- Facts about the groups found after placing a stone on a legal position. -/
structure AfterPut (b : Board) (p : Pt) (c : Colour) (b1 : Board) : Prop where
  side : b1.side = b.side
  wf : b1.WF
  pos : b1.pos = Go.put b.pos p (some c)

section
variable {p : Pt} {c : Colour} {b1 : Board} {gs : List Grp}

theorem own_contains (hl : Legal b.side b.pos) (hp : OnBoard b.side p) (he : b.pos p = none)
    (ha : AfterPut b p c b1) (hg : FSG b1 gs) {g : Grp} (hgm : g ∈ gs) (hc : g.colour = c) : p ∈ g.points := by
  obtain ⟨q, hq⟩ := hg.nonempty hgm
  have hd := hg.colour_of_mem hgm hq
  rw [hc] at hd
  rw [ha.side, ha.pos] at hd
  have hcq := own_dead_conn hl hp he hd
  refine hg.mem_of_conn hgm hq ?_
  rw [ha.side, ha.pos]
  exact hcq.symm hp

theorem own_unique (hl : Legal b.side b.pos) (hp : OnBoard b.side p) (he : b.pos p = none)
    (ha : AfterPut b p c b1) (hg : FSG b1 gs) :
    gs.Pairwise (fun g g' => ¬ (g.colour = c ∧ g'.colour = c)) := by
  refine hg.disj.imp_of_mem ?_
  rintro g g' hm hm' hd ⟨h1, h2⟩
  exact hd p (own_contains hl hp he ha hg hm h1) (own_contains hl hp he ha hg hm' h2)

theorem dead_iff_filter (hg : FSG b1 gs) (d : Colour) (q : Pt) :
    Dead b1.side b1.pos d q ↔ ∃ g ∈ gs.filter (fun g => g.colour = d), q ∈ g.points := by
  constructor
  · intro h
    obtain ⟨g, h1, h2, h3⟩ := hg.dead_mem h
    exact ⟨g, List.mem_filter.2 ⟨h1, by simpa using h2⟩, h3⟩
  · rintro ⟨g, h1, h2⟩
    obtain ⟨h1, h3⟩ := List.mem_filter.1 h1
    have := hg.colour_of_mem h1 h2
    rwa [show g.colour = d by simpa using h3] at this

end

theorem playWith_reduce (hwf : b.WF) (o : Pops) {p : Pt} (c : Colour) (hp : OnBoard b.side p)
    (he : b.pos p = none) :
    ∃ b1 : Board, AfterPut b p c b1 ∧ b1.emptyFlag = false ∧
      b.playWith o p.1 p.2 c =
        (match b1.findSurroundedGroups o with
        | [] => .ok (none, b1)
        | [g] => .ok (none, (if g.points.length = b1.side * b1.side then { b1 with emptyFlag := true } else b1).clearGroups [g])
        | g1 :: g2 :: gs' =>
          match koPoint (g1 :: g2 :: gs') ((g1 :: g2 :: gs').filter (fun g => g.colour = c.opponent)) c with
          | .error e => .error e
          | .ok ko => .ok (ko, b1.clearGroups ((g1 :: g2 :: gs').filter (fun g => g.colour = c.opponent)))) := by
  obtain ⟨b', h1, h2, h3, h4, h5⟩ := setitem_ok hwf hp (some c)
  refine ⟨{ b' with emptyFlag := false }, ⟨h2, WF.withFlag h4 _, h5⟩, rfl, ?_⟩
  unfold Board.playWith
  have hneg : ¬ (p.1 < 0 ∨ p.2 < 0) := by unfold OnBoard at hp; omega
  simp only [hneg, if_false, item_ok hwf hp, he, h1, bind, Except.bind, pure, Except.pure,
    ne_eq, not_true]
  rcases (Board.findSurroundedGroups { b' with emptyFlag := false } o) with _ | ⟨g, _ | ⟨g2, gs'⟩⟩
  · rfl
  · rfl
  · simp only
    cases koPoint (g :: g2 :: gs') ((g :: g2 :: gs').filter (fun g => g.colour = c.opponent)) c <;> rfl

theorem rulesPlay_of_opp {n : Nat} {pos : Position} {p : Pt} {c : Colour}
    (h : ∃ q, Dead n (put pos p (some c)) c.opponent q) :
    rulesPlay n pos p c = remove (put pos p (some c)) (Dead n (put pos p (some c)) c.opponent) := by
  unfold rulesPlay; simp only [h, if_true]

theorem rulesPlay_of_no_opp {n : Nat} {pos : Position} {p : Pt} {c : Colour}
    (h : ¬ ∃ q, Dead n (put pos p (some c)) c.opponent q) :
    rulesPlay n pos p c = remove (put pos p (some c)) (Dead n (put pos p (some c)) c) := by
  unfold rulesPlay; simp only [h, if_false]

/-- The played stone is on the board afterwards unless it was captured. -/
theorem rulesPlay_opp_stone {n : Nat} {pos : Position} {p : Pt} {c : Colour}
    (h : ∃ q, Dead n (put pos p (some c)) c.opponent q) : rulesPlay n pos p c p = some c := by
  rw [rulesPlay_of_opp h, remove_of_not, put_same]
  intro hd
  have := hd.2.1
  rw [put_same] at this
  exact opponent_ne c (Option.some.inj this).symm

theorem exists_length_one {α} {l : List α} (h : l.length = 1) : ∃ a, l = [a] := by
  match l, h with
  | [a], _ => exact ⟨a, rfl⟩

theorem koPoint_dead {n : Nat} {pos : Position} {p k : Pt} {c : Colour} (hp : OnBoard n p) (he : pos p = none)
    (hl : Legal n pos)
    (hk : KoPoint n pos (rulesPlay n pos p c) p c k) :
    (∀ q, Dead n (put pos p (some c)) c.opponent q ↔ q = k) ∧
    (∀ q, Dead n (put pos p (some c)) c q ↔ q = p) := by
  obtain ⟨h1, h2, h3, h4⟩ := hk
  have hex : ∃ q, Dead n (put pos p (some c)) c.opponent q := by
    apply Classical.byContradiction
    intro hno
    have := (h1 k).2 rfl
    rw [rulesPlay_of_no_opp hno] at this
    obtain ⟨a1, a2⟩ := this
    have hkp : k ≠ p := by rintro rfl; rw [he] at a1; simp at a1
    rw [remove_of_not] at a2
    · rw [put_other _ hkp, a1] at a2; simp at a2
    · rintro ⟨_, hd, _⟩
      rw [put_other _ hkp, a1] at hd
      exact opponent_ne c (Option.some.inj hd)
  rw [rulesPlay_of_opp hex] at h1 h2 h3 h4
  have hD : ∀ q, Dead n (put pos p (some c)) c.opponent q ↔ q = k := by
    intro q
    rw [← h1 q]
    constructor
    · intro hd
      refine ⟨?_, remove_of hd⟩
      have hqp : q ≠ p := by
        rintro rfl
        have := hd.2.1; rw [put_same] at this; exact opponent_ne c (Option.some.inj this).symm
      have := hd.2.1; rwa [put_other _ hqp] at this
    · rintro ⟨a1, a2⟩
      apply Classical.byContradiction
      intro hnd
      rw [remove_of_not hnd] at a2
      have hqp : q ≠ p := by rintro rfl; rw [he] at a1; simp at a1
      rw [put_other _ hqp, a1] at a2; simp at a2
  refine ⟨hD, ?_⟩
  have hsame : ∀ q, q ≠ k → remove (put pos p (some c)) (Dead n (put pos p (some c)) c.opponent) q = put pos p (some c) q :=
    fun q hq => remove_of_not (fun hd => hq ((hD q).1 hd))
  have hkopp : put pos p (some c) k = some c.opponent := ((hD k).2 rfl).2.1
  -- the group of p is {p}
  have hgrp : ∀ q, Conn n (put pos p (some c)) p q → q = p := by
    intro q hq
    induction hq with
    | refl => rfl
    | step hx ha hb hc ih =>
      subst ih
      rename_i r
      apply h3
      have hrk : r ≠ k := by
        rintro rfl; rw [hkopp, put_same] at hc; exact opponent_ne c (Option.some.inj hc)
      exact Conn.one ha hb (by rw [hsame r hrk, h2, hc, put_same])
  have hnolib : ¬ HasLiberty n (put pos p (some c)) p := by
    rintro ⟨q, r, hq, ha, hr, hn⟩
    have := hgrp q hq; subst this
    have hrk : r ≠ k := by rintro rfl; rw [hkopp] at hn; simp at hn
    exact hrk (h4 r ha hr (by rw [hsame r hrk]; exact hn))
  have hpd : Dead n (put pos p (some c)) c p := ⟨hp, put_same _, hnolib⟩
  intro q
  constructor
  · intro hd
    exact hgrp q (own_dead_conn hl hp he hd)
  · rintro rfl; exact hpd

theorem koPoint_of_dead {n : Nat} {pos : Position} {p k : Pt} {c : Colour} (hp : OnBoard n p) (he : pos p = none)
    (h1 : ∀ q, Dead n (put pos p (some c)) c.opponent q ↔ q = k)
    (h2 : ∀ q, Dead n (put pos p (some c)) c q ↔ q = p) :
    KoPoint n pos (rulesPlay n pos p c) p c k := by
  have hex : ∃ q, Dead n (put pos p (some c)) c.opponent q := ⟨k, (h1 k).2 rfl⟩
  have hst := rulesPlay_opp_stone hex
  rw [rulesPlay_of_opp hex] at *
  have hkopp : put pos p (some c) k = some c.opponent := ((h1 k).2 rfl).2.1
  have hsame : ∀ q, q ≠ k → remove (put pos p (some c)) (Dead n (put pos p (some c)) c.opponent) q = put pos p (some c) q :=
    fun q hq => remove_of_not (fun hd => hq ((h1 q).1 hd))
  have hpd := (h2 p).2 rfl
  refine ⟨?_, hst, ?_, ?_⟩
  · intro q
    constructor
    · rintro ⟨a1, a2⟩
      apply Classical.byContradiction
      intro hqk
      have hqp : q ≠ p := by rintro rfl; rw [he] at a1; simp at a1
      rw [hsame q hqk, put_other _ hqp, a1] at a2; simp at a2
    · rintro rfl
      have hqp : q ≠ p := by
        rintro rfl; rw [put_same] at hkopp; exact opponent_ne c (Option.some.inj hkopp).symm
      exact ⟨by rwa [put_other _ hqp] at hkopp, remove_of ((h1 q).2 rfl)⟩
  · intro q hq
    induction hq with
    | refl => rfl
    | step hx ha hb hc ih =>
      subst ih
      rename_i r
      rw [hst] at hc
      have hrk : r ≠ k := by
        rintro rfl; rw [remove_of ((h1 r).2 rfl)] at hc; simp at hc
      rw [hsame r hrk] at hc
      have hconn := Conn.one (pos := put pos _ (some c)) ha hb (by rw [hc, put_same])
      exact (h2 r).1 ((dead_saturated c _ r hp hconn).1 hpd)
  · intro q ha hq hn
    apply Classical.byContradiction
    intro hqk
    rw [hsame q hqk] at hn
    exact hpd.2.2 ⟨p, q, .refl, ha, hq, hn⟩

theorem length_one_of_mem_iff {l : List Pt} (hn : l.Nodup) {k : Pt} (h : ∀ q, q ∈ l ↔ q = k) : l = [k] := by
  have hk : k ∈ l := (h k).2 rfl
  cases l with
  | nil => simp at hk
  | cons a l =>
    have ha : a = k := (h a).1 (by simp)
    subst ha
    cases l with
    | nil => rfl
    | cons x l =>
      have : x = a := (h x).1 (by simp)
      subst this
      simp at hn

/-- The main fact about `play`. -/
theorem playWith_spec (hwf : b.WF) (o : Pops) {p : Pt} (c : Colour)
    (hl : Legal b.side b.pos) (hp : OnBoard b.side p) (he : b.pos p = none) :
    ∃ ko b', b.playWith o p.1 p.2 c = .ok (ko, b') ∧ b'.side = b.side ∧ b'.WF ∧
      b'.pos = rulesPlay b.side b.pos p c ∧
      (b'.emptyFlag = true ↔ ∀ q, b'.pos q = none) ∧
      (∀ k, ko = some k ↔ KoPoint b.side b.pos b'.pos p c k) := by
  obtain ⟨b1, ha, hflag, hred⟩ := playWith_reduce hwf o c hp he
  have hg := findSurroundedGroups_spec ha.wf o
  rw [hred]
  generalize hgs : b1.findSurroundedGroups o = gs at hg
  have hownu := own_unique hl hp he ha hg
  have honb : ∀ g ∈ gs, ∀ q ∈ g.points, OnBoard b1.side q := fun g hgm q hq => (hg.colour_of_mem hgm hq).1
  have hdead := fun d q => dead_iff_filter hg d q
  rw [ha.side, ha.pos] at hdead
  -- a group containing every point of the board
  have hputp : b1.pos p = some c := by rw [ha.pos, put_same]
  match gs, hg, hownu, honb, hdead with
  | [], hg, hownu, honb, hdead =>
    have hno : ∀ d, ¬ ∃ q, Dead b.side (put b.pos p (some c)) d q := by
      rintro d ⟨q, hq⟩; have := (hdead d q).1 hq; simp at this
    have hrp : rulesPlay b.side b.pos p c = b1.pos := by
      rw [rulesPlay_of_no_opp (hno _), ha.pos]
      funext q; exact remove_of_not (fun h => hno _ ⟨q, h⟩)
    refine ⟨none, b1, rfl, ha.side, ha.wf, hrp.symm, ?_, ?_⟩
    · simp only [hflag, Bool.false_eq_true, false_iff]
      intro h; rw [h p] at hputp; simp at hputp
    · intro k
      simp only [reduceCtorEq, false_iff]
      intro hk
      rw [← hrp] at hk
      exact hno _ ⟨k, ((koPoint_dead hp he hl hk).1 k).2 rfl⟩
  | [g], hg, hownu, honb, hdead =>
    simp only
    have hwf2 : (if g.points.length = b1.side * b1.side then ({ b1 with emptyFlag := true } : Board) else b1).WF := by
      split
      · exact WF.withFlag ha.wf _
      · exact ha.wf
    have hside2 : (if g.points.length = b1.side * b1.side then ({ b1 with emptyFlag := true } : Board) else b1).side = b1.side := by
      split <;> rfl
    have hpos2 : (if g.points.length = b1.side * b1.side then ({ b1 with emptyFlag := true } : Board) else b1).pos = b1.pos := by
      split
      · exact pos_withFlag _
      · rfl
    obtain ⟨c1, c2, c3, c4⟩ := clearGroups_spec hwf2 [g] (by rw [hside2]; exact honb)
    have hpoints : ∀ q, (∃ x ∈ [g], q ∈ x.points) ↔ q ∈ g.points := by intro q; simp
    -- which colour
    have hrp : remove b1.pos (fun q => ∃ x ∈ [g], q ∈ x.points) = rulesPlay b.side b.pos p c := by
      by_cases hc : g.colour = c
      · have hno : ¬ ∃ q, Dead b.side (put b.pos p (some c)) c.opponent q := by
          rintro ⟨q, hq⟩
          have := (hdead _ q).1 hq
          simp [hc, (opponent_ne c).symm] at this
        rw [rulesPlay_of_no_opp hno, ha.pos]
        apply remove_congr
        intro q; rw [hdead]; simp [hc]
      · have hc' := eq_opponent_of_ne hc
        have hex : ∃ q, Dead b.side (put b.pos p (some c)) c.opponent q := by
          obtain ⟨q, hq⟩ := hg.nonempty (g := g) (by simp)
          exact ⟨q, (hdead _ q).2 (by simp [hc', hq])⟩
        rw [rulesPlay_of_opp hex, ha.pos]
        apply remove_congr
        intro q; rw [hdead]; simp [hc']
    refine ⟨none, _, rfl, by rw [c1, hside2, ha.side], c3, by rw [c4, hpos2, hrp], ?_, ?_⟩
    · rw [c2, c4, hpos2]
      have hnod : g.points.Nodup := (hg.each g (by simp)).1
      constructor
      · intro hf q
        split at hf
        · rename_i hlen
          by_cases hq : OnBoard b1.side q
          · apply remove_of
            rw [hpoints]
            -- g.points has all the points
            have hperm : g.points.Subperm (boardPoints b1.side) :=
              List.subperm_of_subset hnod (fun x hx => mem_boardPoints.2 (honb g (by simp) x hx))
            have := hperm.perm_of_length_le (by rw [length_boardPoints, hlen]; exact Nat.le_refl _)
            exact this.mem_iff.2 (mem_boardPoints.2 hq)
          · unfold remove; split
            · rfl
            · exact pos_off ha.wf hq
        · rw [hflag] at hf; simp at hf
      · intro hall
        -- every stone is in g, and g has no liberties, so g is everything
        have hstones : ∀ q, OnBoard b1.side q → b1.pos q ≠ none → q ∈ g.points := by
          intro q _ hne
          have := hall q
          unfold remove at this
          split at this
          · rename_i h; exact (hpoints q).1 h
          · exact absurd this hne
        obtain ⟨_, p0, hp0, hc0, hlib0, hmem0⟩ := hg.each g (by simp)
        have hfull : ∀ q, OnBoard b1.side q → q ∈ g.points := by
          refine grid_closed (p := p0) ?_ hp0 ((hmem0 p0).2 .refl)
          intro x y hx hxg hxy hy
          by_cases hyn : b1.pos y = none
          · exact absurd ⟨x, y, (hmem0 x).1 hxg, hxy, hy, hyn⟩ hlib0
          · exact hstones y hy hyn
        have hlen : g.points.length = b1.side * b1.side := by
          have hperm : g.points.Perm (boardPoints b1.side) := by
            rw [List.perm_ext_iff_of_nodup hnod (nodup_boardPoints _)]
            intro q; rw [mem_boardPoints]
            exact ⟨honb g (by simp) q, hfull q⟩
          rw [hperm.length_eq, length_boardPoints]
        simp [hlen]
    · intro k
      simp only [reduceCtorEq, false_iff]
      intro hk
      rw [c4, hpos2, hrp] at hk
      obtain ⟨k1, k2⟩ := koPoint_dead hp he hl hk
      have e1 := (hdead _ k).1 ((k1 k).2 rfl)
      have e2 := (hdead _ p).1 ((k2 p).2 rfl)
      simp at e1 e2
      exact opponent_ne c (e1.1.symm.trans e2.1)
  | g1 :: g2 :: gs', hg, hownu, honb, hdead =>
    simp only
    generalize hL : g1 :: g2 :: gs' = L at *
    -- there is an opponent group
    have hexg : ∃ g ∈ L, g.colour = c.opponent := by
      apply Classical.byContradiction
      intro hno
      have h1 : g1.colour = c := by
        apply Classical.byContradiction
        intro h; exact hno ⟨g1, by simp [← hL], eq_opponent_of_ne h⟩
      have h2 : g2.colour = c := by
        apply Classical.byContradiction
        intro h; exact hno ⟨g2, by simp [← hL], eq_opponent_of_ne h⟩
      rw [← hL] at hownu
      exact (List.pairwise_cons.1 hownu).1 g2 (by simp) ⟨h1, h2⟩
    have hex : ∃ q, Dead b.side (put b.pos p (some c)) c.opponent q := by
      obtain ⟨g, hgm, hgc⟩ := hexg
      obtain ⟨q, hq⟩ := hg.nonempty hgm
      exact ⟨q, (hdead _ q).2 ⟨g, List.mem_filter.2 ⟨hgm, by simpa using hgc⟩, hq⟩⟩
    obtain ⟨c1, c2, c3, c4⟩ := clearGroups_spec ha.wf (L.filter (fun g => g.colour = c.opponent))
      (fun g hgm => honb g (List.mem_filter.1 hgm).1)
    have hrp : remove b1.pos (fun q => ∃ g ∈ L.filter (fun g => g.colour = c.opponent), q ∈ g.points)
        = rulesPlay b.side b.pos p c := by
      rw [rulesPlay_of_opp hex, ha.pos]
      apply remove_congr
      intro q; rw [hdead]
    -- the ko point
    have hko : ∃ ko, koPoint L (L.filter (fun g => g.colour = c.opponent)) c = .ok ko ∧
        ∀ k, ko = some k ↔ ((∀ q, Dead b.side (put b.pos p (some c)) c.opponent q ↔ q = k) ∧
          (∀ q, Dead b.side (put b.pos p (some c)) c q ↔ q = p)) := by
      unfold koPoint
      generalize hT : L.filter (fun g => decide (g.colour = c.opponent)) = T
      match T, hT with
      | [], hT =>
        obtain ⟨g, hgm, hgc⟩ := hexg
        have : g ∈ L.filter (fun g => decide (g.colour = c.opponent)) := List.mem_filter.2 ⟨hgm, by simpa using hgc⟩
        rw [hT] at this; simp at this
      | ga :: gb :: rest, hT =>
        refine ⟨none, rfl, ?_⟩
        intro k
        simp only [reduceCtorEq, false_iff]
        rintro ⟨k1, _⟩
        have hga : ga ∈ L.filter (fun g => decide (g.colour = c.opponent)) := by rw [hT]; simp
        have hgb : gb ∈ L.filter (fun g => decide (g.colour = c.opponent)) := by rw [hT]; simp
        obtain ⟨x, hx⟩ := hg.nonempty (List.mem_filter.1 hga).1
        obtain ⟨y, hy⟩ := hg.nonempty (List.mem_filter.1 hgb).1
        have ex := (k1 x).1 ((hdead _ x).2 ⟨ga, hga, hx⟩)
        have ey := (k1 y).1 ((hdead _ y).2 ⟨gb, hgb, hy⟩)
        subst ex; subst ey
        have hdj := hg.disj.filter (fun g => decide (g.colour = c.opponent))
        rw [hT] at hdj
        exact (List.pairwise_cons.1 hdj).1 gb (by simp) _ hx hy
      | [g], hT =>
        simp only
        have hgm : g ∈ L ∧ g.colour = c.opponent := by
          have : g ∈ L.filter (fun g => decide (g.colour = c.opponent)) := by rw [hT]; simp
          simpa using List.mem_filter.1 this
        -- an own group exists
        have hexown : ∃ s ∈ L, s.colour = c := by
          apply Classical.byContradiction
          intro hno
          have hall : ∀ x ∈ L, x.colour = c.opponent := fun x hx =>
            eq_opponent_of_ne (fun h => hno ⟨x, hx, h⟩)
          have : L.filter (fun g => decide (g.colour = c.opponent)) = L :=
            List.filter_eq_self.2 (fun x hx => by simpa using hall x hx)
          rw [this, ← hL] at hT
          simp at hT
        obtain ⟨s, hsL, hsc⟩ := hexown
        have hownlist : L.filter (fun g => decide (g.colour = c)) = [s] := by
          match hO : L.filter (fun g => decide (g.colour = c)) with
          | [] =>
            have : s ∈ L.filter (fun g => decide (g.colour = c)) := List.mem_filter.2 ⟨hsL, by simpa using hsc⟩
            rw [hO] at this; simp at this
          | [x] =>
            have : s ∈ L.filter (fun g => decide (g.colour = c)) := List.mem_filter.2 ⟨hsL, by simpa using hsc⟩
            rw [hO] at this; simp at this; rw [this]; exact hO
          | x :: y :: rest =>
            have hu := hownu.filter (fun g => decide (g.colour = c))
            have hx : x ∈ L.filter (fun g => decide (g.colour = c)) := by rw [hO]; simp
            have hy : y ∈ L.filter (fun g => decide (g.colour = c)) := by rw [hO]; simp
            rw [hO] at hu
            exact absurd ⟨by simpa using (List.mem_filter.1 hx).2, by simpa using (List.mem_filter.1 hy).2⟩
              ((List.pairwise_cons.1 hu).1 y (by simp))
        have hps : p ∈ s.points := own_contains hl hp he ha hg hsL hsc
        have hOpp : ∀ q, Dead b.side (put b.pos p (some c)) c.opponent q ↔ q ∈ g.points := by
          intro q; rw [hdead, hT]; simp
        have hOwn : ∀ q, Dead b.side (put b.pos p (some c)) c q ↔ q ∈ s.points := by
          intro q; rw [hdead, hownlist]; simp
        have hgn := (hg.each g hgm.1).1
        have hsn := (hg.each s hsL).1
        by_cases h1 : g.points.length = 1
        · simp only [h1, if_true, hownlist]
          have : getItem [s] 0 = .ok s := rfl
          rw [this]
          simp only
          obtain ⟨k0, hk0⟩ := exists_length_one h1
          by_cases h2 : s.points.length = 1
          · simp only [h2, if_true, hk0]
            refine ⟨some k0, rfl, ?_⟩
            intro k
            obtain ⟨s0, hs0⟩ := exists_length_one h2
            rw [hs0] at hps
            simp at hps; subst hps
            simp only [hOpp, hOwn, hk0, hs0, List.mem_singleton, implies_true, and_true, Option.some.injEq]
            constructor
            · rintro rfl q; exact Iff.rfl
            · intro h; exact (h k0).1 rfl
          · simp only [h2, if_false]
            refine ⟨none, rfl, ?_⟩
            intro k
            simp only [reduceCtorEq, false_iff]
            rintro ⟨_, k2⟩
            apply h2
            rw [length_one_of_mem_iff hsn (k := p) (fun q => by rw [← hOwn, k2])]
            rfl
        · simp only [h1, if_false]
          refine ⟨none, rfl, ?_⟩
          intro k
          simp only [reduceCtorEq, false_iff]
          rintro ⟨k1, _⟩
          apply h1
          rw [length_one_of_mem_iff hgn (k := k) (fun q => by rw [← hOpp, k1])]
          rfl
    obtain ⟨ko, hko1, hko2⟩ := hko
    rw [hko1]
    refine ⟨ko, _, rfl, by rw [c1, ha.side], c3, by rw [c4, hrp], ?_, ?_⟩
    · rw [c2, hflag, c4, hrp]
      simp only [Bool.false_eq_true, false_iff]
      intro h
      have := rulesPlay_opp_stone hex
      rw [h p] at this; simp at this
    · intro k
      rw [hko2, c4, hrp]
      constructor
      · rintro ⟨k1, k2⟩; exact koPoint_of_dead hp he k1 k2
      · intro hk; exact koPoint_dead hp he hl hk

theorem playWith_off (hwf : b.WF) (o : Pops) {p : Pt} (c : Colour) (hp : ¬ OnBoard b.side p) :
    b.playWith o p.1 p.2 c = .error .indexError := by
  unfold Board.playWith
  by_cases hneg : p.1 < 0 ∨ p.2 < 0
  · simp only [hneg, if_true]; rfl
  · simp only [hneg, if_false, bind, Except.bind, pure, Except.pure]
    rw [item_error hwf (by omega) (by omega) hp]

theorem playWith_occupied (hwf : b.WF) (o : Pops) {p : Pt} (c : Colour) (hp : OnBoard b.side p)
    (he : b.pos p ≠ none) : b.playWith o p.1 p.2 c = .error .valueError := by
  unfold Board.playWith
  have hneg : ¬ (p.1 < 0 ∨ p.2 < 0) := by unfold OnBoard at hp; omega
  simp only [hneg, if_false, bind, Except.bind, pure, Except.pure, item_ok hwf hp]
  simp only [ne_eq, he, not_false_eq_true, if_true]
  rfl

end Gomill
