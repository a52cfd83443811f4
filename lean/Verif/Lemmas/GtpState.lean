import Verif.Model.GtpState
import Verif.Spec.Game
import Verif.Props.Game
namespace Gomill.Gtp
open Py Go

/-! ### replaying moves with Board.play -/

/-- Replay moves, keeping the ko point and the player it is forbidden to, as left by the last stone played. -/
def replayK (b : Board) (ko : Option Pt) (pl : Option Colour) : List HistMove → Except Exc (Board × Option Pt × Option Colour)
  | [] => .ok (b, ko, pl)
  | m :: rest => match m.move with
    | none => replayK b ko pl rest
    | some (row, col) => match b.play row col m.colour with
      | .error e => .error e
      | .ok (k, b') => replayK b' k (some m.colour.opponent) rest

theorem replayK_append {b b' : Board} {ko ko' : Option Pt} {pl pl' : Option Colour} {l r : List HistMove}
    (h : replayK b ko pl l = .ok (b', ko', pl')) : replayK b ko pl (l ++ r) = replayK b' ko' pl' r := by
  induction l generalizing b ko pl with
  | nil => simp only [replayK, Except.ok.injEq, Prod.mk.injEq] at h; obtain ⟨rfl, rfl, rfl⟩ := h; rfl
  | cons m l ih =>
    rw [List.cons_append]
    unfold replayK at h
    conv => lhs; unfold replayK
    cases hm : m.move with
    | none => rw [hm] at h; exact ih h
    | some p =>
      rw [hm] at h
      simp only at h ⊢
      cases hp : b.play p.1 p.2 m.colour with
      | error e => rw [hp] at h; simp at h
      | ok r' => rw [hp] at h; exact ih h

theorem replayK_take {b : Board} {ko : Option Pt} {pl : Option Colour} {l r : List HistMove} {x}
    (h : replayK b ko pl (l ++ r) = .ok x) : ∃ y, replayK b ko pl l = .ok y := by
  induction l generalizing b ko pl with
  | nil => exact ⟨_, rfl⟩
  | cons m l ih =>
    rw [List.cons_append] at h
    unfold replayK at h ⊢
    cases hm : m.move with
    | none => rw [hm] at h; exact ih h
    | some p =>
      rw [hm] at h
      simp only at h ⊢
      cases hp : b.play p.1 p.2 m.colour with
      | error e => rw [hp] at h; simp at h
      | ok r' => rw [hp] at h; exact ih h

/-- The effect of the loop, in terms of `replayK`. -/
theorem resetLoop_eq (s : GS) (ko : Option Pt) (pl : Option Colour) (l : List HistMove) :
    (∀ b' ko' pl', replayK s.board ko pl l = .ok (b', ko', pl') →
      ∃ k, resetLoop s ko pl l = ({ s with board := b', koPoint := k }, .ok (ko', pl'))) ∧
    (∀ e, replayK s.board ko pl l = .error e →
      ∃ b' k, resetLoop s ko pl l = ({ s with board := b', koPoint := k }, .error e)) := by
  induction l generalizing s ko pl with
  | nil =>
    refine ⟨?_, ?_⟩
    · intro b' ko' pl' h
      simp only [replayK, Except.ok.injEq, Prod.mk.injEq] at h; obtain ⟨rfl, rfl, rfl⟩ := h
      exact ⟨s.koPoint, rfl⟩
    · intro e h; simp [replayK] at h
  | cons m l ih =>
    cases hm : m.move with
    | none =>
      have := ih { s with koPoint := none } ko pl
      unfold replayK resetLoop
      rw [hm]
      exact this
    | some p =>
      obtain ⟨row, col⟩ := p
      unfold replayK resetLoop
      rw [hm]
      simp only
      cases hp : s.board.play row col m.colour with
      | error e =>
        refine ⟨by intro _ _ _ h; simp at h, ?_⟩
        intro e' h
        simp at h; subst h
        exact ⟨s.board, s.koPoint, rfl⟩
      | ok r => exact ih { s with board := r.2 } r.1 _

theorem copy_eq (b : Board) : b.copy = b := rfl

theorem resetToMoves_ok {s : GS} {l : List HistMove} {b ko pl} (h : replayK s.base none none l = .ok (b, ko, pl)) :
    s.resetToMoves l = ({ s with board := b, koPoint := ko, koPlayer := pl, history := l }, none) := by
  obtain ⟨k, hk⟩ := (resetLoop_eq { s with board := s.base.copy } none none l).1 b ko pl (by simpa [copy_eq] using h)
  unfold GS.resetToMoves
  rw [hk]

theorem resetToMoves_error {s : GS} {l : List HistMove} {e : Exc} (h : replayK s.base none none l = .error e) :
    ∃ b k, s.resetToMoves l = ({ s with board := b, koPoint := k }, some e) := by
  obtain ⟨b, k, hk⟩ := (resetLoop_eq { s with board := s.base.copy } none none l).2 e (by simpa [copy_eq] using h)
  refine ⟨b, k, ?_⟩
  unfold GS.resetToMoves
  rw [hk]

/-! ### in terms of the rules -/

def GS.moves (s : GS) : List Mv := s.history.map (fun m => (m.colour, m.move))

def mvs (l : List HistMove) : List Mv := l.map (fun m => (m.colour, m.move))

theorem reach_play {n : Nat} {b b' : Board} {row col : Int} {c : Colour} {ko : Option Pt} (h : ReachableBoard n b)
    (hp : b.play row col c = .ok (ko, b')) : ReachableBoard n b' := by
  obtain ⟨b0, ops, h0, rfl⟩ := h
  refine ⟨b0, ops ++ [.play defaultPops row col c], h0, ?_⟩
  rw [List.foldl_append]
  simp only [List.foldl_cons, List.foldl_nil, stepBoard]
  unfold Board.play at hp
  rw [hp]

theorem play_ok {n : Nat} {b b' : Board} {row col : Int} {c : Colour} {ko : Option Pt} (h : ReachableBoard n b)
    (hp : b.play row col c = .ok (ko, b')) :
    OnBoard n (row, col) ∧ b.pos (row, col) = none ∧ b'.pos = rulesPlay n b.pos (row, col) c ∧
      ∀ k, ko = some k ↔ KoPoint n b.pos b'.pos (row, col) c k := by
  have he := C06_play_errors h defaultPops (row, col) c
  unfold Board.play at hp
  by_cases h1 : OnBoard n (row, col)
  · by_cases h2 : b.pos (row, col) = none
    · obtain ⟨ko', b2, h3, h4⟩ := C06_play_follows_rules h defaultPops (row, col) c h1 h2
      simp only at h3
      rw [hp] at h3
      cases h3
      exact ⟨h1, h2, h4, fun k => C07_simple_ko h defaultPops (row, col) c ko hp k⟩
    · have := he.2 h1 h2; simp only at this; rw [hp] at this; simp at this
  · have := he.1 h1; simp only at this; rw [hp] at this; simp at this

theorem play_legal {n : Nat} {b : Board} {p : Pt} {c : Colour} (h : ReachableBoard n b)
    (h1 : OnBoard n p) (h2 : b.pos p = none) : ∃ ko b', b.play p.1 p.2 c = .ok (ko, b') := by
  obtain ⟨ko', b2, h3, _⟩ := C06_play_follows_rules h defaultPops p c h1 h2
  exact ⟨ko', b2, h3⟩

theorem koOf_nil {n : Nat} {pos0 : Position} {p : Pt} {c : Colour} : ¬ KoOfLastStone n pos0 [] p c := by
  rintro ⟨l, q, r, h, _⟩; simp at h

theorem koOf_pass {n : Nat} {pos0 : Position} {hist : List Mv} {d : Colour} {p : Pt} {c : Colour} :
    KoOfLastStone n pos0 (hist ++ [(d, none)]) p c ↔ KoOfLastStone n pos0 hist p c := by
  constructor
  · rintro ⟨l, q, r, h, hr, hk⟩
    rcases List.eq_nil_or_concat r with rfl | ⟨r', m, rfl⟩
    · have := List.append_inj' h rfl
      simp at this
    · rw [List.concat_eq_append] at h hr
      have : hist ++ [(d, none)] = (l ++ (c.opponent, some q) :: r') ++ [m] := by simpa using h
      have := List.append_inj' this rfl
      exact ⟨l, q, r', this.1, fun x hx => hr x (by simp [hx]), hk⟩
  · rintro ⟨l, q, r, rfl, hr, hk⟩
    exact ⟨l, q, r ++ [(d, none)], by simp, by intro m hm; rcases List.mem_append.mp hm with h | h; exact hr m h; simp at h; simp [h], hk⟩

theorem koOf_stone {n : Nat} {pos0 : Position} {hist : List Mv} {d : Colour} {q p : Pt} {c : Colour} :
    KoOfLastStone n pos0 (hist ++ [(d, some q)]) p c ↔
      d = c.opponent ∧ KoPoint n (replay n pos0 hist) (replay n pos0 (hist ++ [(d, some q)])) q d p := by
  constructor
  · rintro ⟨l, q', r, h, hr, hk⟩
    rcases List.eq_nil_or_concat r with rfl | ⟨r', m, rfl⟩
    · have := List.append_inj' h rfl
      simp at this
      obtain ⟨rfl, rfl, rfl⟩ := this
      exact ⟨rfl, hk⟩
    · rw [List.concat_eq_append] at h hr
      have h' : hist ++ [(d, some q)] = (l ++ (c.opponent, some q') :: r') ++ [m] := by simpa using h
      have h1 := List.singleton_inj.1 (List.append_inj' h' rfl).2
      have h2 := hr m (by simp)
      rw [← h1] at h2
      simp at h2
  · rintro ⟨rfl, hk⟩
    exact ⟨hist, q, [], rfl, by simp, hk⟩

theorem allLegal_snoc {n : Nat} {pos0 : Position} {hist : List Mv} {m : Mv} (h : AllLegal n pos0 hist)
    (hm : ∀ p, m.2 = some p → OnBoard n p ∧ replay n pos0 hist p = none) : AllLegal n pos0 (hist ++ [m]) := by
  intro l c p r heq
  rcases List.eq_nil_or_concat r with rfl | ⟨r', x, rfl⟩
  · have := List.append_inj' heq rfl
    rw [← this.1]; exact hm p (by have h2 := List.singleton_inj.1 this.2; rw [h2])
  · rw [List.concat_eq_append] at heq
    have : hist ++ [m] = (l ++ (c, some p) :: r') ++ [x] := by simpa using heq
    exact h l c p r' (List.append_inj' this rfl).1

/-- What replaying amounts to. -/
theorem replayK_rules {n : Nat} {b0 : Board} (h0 : ReachableBoard n b0) (l : List HistMove) :
    ∀ b ko pl, replayK b0 none none l = .ok (b, ko, pl) →
      ReachableBoard n b ∧ b.pos = replay n b0.pos (mvs l) ∧ AllLegal n b0.pos (mvs l) ∧
      (∀ p c, (ko = some p ∧ pl = some c) ↔ KoOfLastStone n b0.pos (mvs l) p c) ∧ (pl = none → ko = none) := by
  induction l using List.reverseRecOn with
  | nil =>
    intro b ko pl h
    simp only [replayK, Except.ok.injEq, Prod.mk.injEq] at h; obtain ⟨rfl, rfl, rfl⟩ := h
    refine ⟨h0, rfl, ?_, ?_, fun _ => rfl⟩
    · intro l c p r h; simp [mvs] at h
    · intro p c; simp; exact koOf_nil
  | append_singleton l m ih =>
    intro b ko pl h
    obtain ⟨⟨b1, ko1, pl1⟩, h1⟩ := replayK_take h
    obtain ⟨i1, i2, i3, i4, i5⟩ := ih b1 ko1 pl1 h1
    rw [replayK_append h1] at h
    have hm1 : mvs (l ++ [m]) = mvs l ++ [(m.colour, m.move)] := by simp [mvs]
    rw [hm1]
    unfold replayK at h
    cases hmv : m.move with
    | none =>
      rw [hmv] at h
      simp only [replayK, Except.ok.injEq, Prod.mk.injEq] at h; obtain ⟨rfl, rfl, rfl⟩ := h
      refine ⟨i1, ?_, allLegal_snoc i3 (by simp), ?_, i5⟩
      · rw [replay_snoc]; exact i2
      · intro p c; rw [koOf_pass]; exact i4 p c
    | some p =>
      rw [hmv] at h
      simp only at h
      cases hp : b1.play p.1 p.2 m.colour with
      | error e => rw [hp] at h; simp at h
      | ok r =>
        obtain ⟨k, b2⟩ := r
        rw [hp] at h
        simp only [replayK, Except.ok.injEq, Prod.mk.injEq] at h; obtain ⟨rfl, rfl, rfl⟩ := h
        obtain ⟨j1, j2, j3, j4⟩ := play_ok i1 hp
        have hpos : b2.pos = replay n b0.pos (mvs l ++ [(m.colour, some p)]) := by
          rw [replay_snoc, ← i2]; exact j3
        refine ⟨reach_play i1 hp, hpos, allLegal_snoc i3 ?_, ?_, by simp⟩
        · intro q hq; simp at hq; subst hq; rw [← i2]; exact ⟨j1, j2⟩
        · intro q c
          rw [koOf_stone, ← hpos, ← i2, j4]
          constructor
          · rintro ⟨hk, hc⟩
            simp at hc; subst hc
            exact ⟨by cases m.colour <;> rfl, hk⟩
          · rintro ⟨hc, hk⟩
            exact ⟨hk, by rw [hc]; cases c <;> rfl⟩

/-- Legal moves can be replayed. -/
theorem replayK_ok {n : Nat} {b0 : Board} (h0 : ReachableBoard n b0) (l : List HistMove) (hl : AllLegal n b0.pos (mvs l)) :
    ∃ x, replayK b0 none none l = .ok x := by
  induction l using List.reverseRecOn with
  | nil => exact ⟨_, rfl⟩
  | append_singleton l m ih =>
    have hm1 : mvs (l ++ [m]) = mvs l ++ [(m.colour, m.move)] := by simp [mvs]
    have hl' : AllLegal n b0.pos (mvs l) := by
      intro l' c p r heq
      apply hl l' c p (r ++ [(m.colour, m.move)])
      rw [hm1, heq]; simp
    obtain ⟨⟨b1, ko1, pl1⟩, h1⟩ := ih hl'
    obtain ⟨i1, i2, _⟩ := replayK_rules h0 l b1 ko1 pl1 h1
    rw [replayK_append h1]
    unfold replayK
    cases hmv : m.move with
    | none => exact ⟨_, rfl⟩
    | some p =>
      have := hl (mvs l) m.colour p [] (by rw [hm1, hmv])
      rw [← i2] at this
      obtain ⟨ko, b', hp⟩ := play_legal (c := m.colour) i1 this.1 this.2
      simp only [hp]
      exact ⟨_, rfl⟩

theorem replayK_error {n : Nat} {b0 : Board} (h0 : ReachableBoard n b0) (l : List HistMove) (ko : Option Pt) (pl : Option Colour)
    (hl : ∀ m ∈ l, ∀ p, m.move = some p → OnBoard n p) {e : Exc} (h : replayK b0 ko pl l = .error e) : e = .valueError := by
  induction l generalizing b0 ko pl with
  | nil => simp [replayK] at h
  | cons m l ih =>
    unfold replayK at h
    cases hm : m.move with
    | none => rw [hm] at h; exact ih h0 _ _ (fun x hx => hl x (by simp [hx])) h
    | some p =>
      rw [hm] at h
      simp only at h
      cases hp : b0.play p.1 p.2 m.colour with
      | error e' =>
        rw [hp] at h
        simp at h; subst h
        have he := C06_play_errors h0 defaultPops p m.colour
        have hon := hl m (by simp) p hm
        unfold Board.play at hp
        by_cases h2 : b0.pos p = none
        · obtain ⟨k, b', hk⟩ := play_legal (c := m.colour) h0 hon h2
          unfold Board.play at hk; rw [hk] at hp; simp at hp
        · rw [he.2 hon h2] at hp; simp at hp; exact hp.symm
      | ok r =>
        obtain ⟨k, b1⟩ := r
        rw [hp] at h
        exact ih (reach_play h0 hp) _ _ (fun x hx => hl x (by simp [hx])) h

/-! ### stones of one colour -/

/-- Playing black stones at different points of an empty board, leaving a point free, gives a board with those stones. -/
theorem playAll_spec {n : Nat} (ps : List Pt) :
    ∀ {b : Board}, ReachableBoard n b → (∀ q, OnBoard n q → b.pos q ≠ some .w) → ps.Nodup → (∀ p ∈ ps, OnBoard n p ∧ b.pos p = none) →
    ∃ b', playAll b ps = (b', none) ∧ ReachableBoard n b' ∧
      ((∃ e, OnBoard n e ∧ b.pos e = none ∧ e ∉ ps) → ∀ q, b'.pos q = if q ∈ ps then some .b else b.pos q) := by
  induction ps with
  | nil => intro b hb _ _ _; exact ⟨b, rfl, hb, fun _ q => by simp⟩
  | cons p ps ih =>
    intro b hb hw hnd hps
    obtain ⟨h1, h2⟩ := hps p (by simp)
    obtain ⟨ko, b1, hp⟩ := play_legal (c := .b) hb h1 h2
    obtain ⟨_, _, hpos, _⟩ := play_ok hb hp
    have hb1 := reach_play hb hp
    have hsub : ∀ q, q ≠ p → b.pos q = none → b1.pos q = none := by
      intro q hq hn
      have hpos' := congrFun hpos q
      rw [hpos']
      unfold rulesPlay
      split <;> (unfold remove put; split <;> simp_all)
    have hw1 : ∀ q, OnBoard n q → b1.pos q ≠ some .w := by
      intro q hq
      rw [congrFun hpos q]
      unfold rulesPlay
      split
      · unfold remove; split
        · simp
        · unfold put; split
          · simp
          · exact hw q hq
      · unfold remove; split
        · simp
        · unfold put; split
          · simp
          · exact hw q hq
    rw [List.nodup_cons] at hnd
    obtain ⟨b', h3, h4, h5⟩ := ih hb1 hw1 hnd.2 (by
      intro q hq
      obtain ⟨h6, h7⟩ := hps q (by simp [hq])
      exact ⟨h6, hsub q (fun h => hnd.1 (h ▸ hq)) h7⟩)
    refine ⟨b', ?_, h4, ?_⟩
    · unfold playAll; rw [hp]; exact h3
    · rintro ⟨e, e1, e2, e3⟩ q
      simp only [List.mem_cons, not_or] at e3
      rw [h5 ⟨e, e1, hsub e e3.1 e2, e3.2⟩ q]
      have hall : b1.pos = put b.pos p (some .b) := by
        rw [hpos]
        have hcc : ∀ q, OnBoard n q → put b.pos p (some Colour.b) q ≠ some Colour.b.opponent := by
          intro q hq; unfold put; split
          · simp [Colour.opponent]
          · exact hw q hq
        unfold rulesPlay
        simp only
        rw [if_neg]
        · funext q
          unfold remove
          rw [if_neg]
          rintro ⟨d1, d2, d3⟩
          exact d3 (one_colour_liberty hcc d1 e1 (by unfold put; rw [if_neg e3.1]; exact e2) d2)
        · rintro ⟨q, d1, d2, d3⟩
          exact hcc q d1 d2
      rw [hall]
      simp only [List.mem_cons, put]
      by_cases hqp : q = p
      · subst hqp; simp
      · simp [hqp]

end Gomill.Gtp
