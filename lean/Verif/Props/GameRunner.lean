import Verif.Model.GameRunner
import Verif.Props.Score
/-
C31: running a game between two players (gameplay.Game_runner), for every backend.
-/
namespace Gomill
open Py Go

variable {σ : Type} {n : Nat} {b0 : Board} {first : Colour} {limit : Option Int} {h : List Mv} {e : Option Ending}

/-- The moves `get_moves` reports, without the comments. -/
def movesOf (r : Runner σ) : List Mv := r.moves.map (fun x => (x.1, x.2.1))

/-- The possible outcomes of a turn, starting from recorded moves `h`, all of them reported. -/
def TurnSpec (n : Nat) (b0 : Board) (first : Colour) (limit : Option Int) (h : List Mv) (s : Run σ)
    (x : Except GExc Unit × Run σ) : Prop :=
  x.2.r.result = s.r.result ∧ x.2.r.boardSize = s.r.boardSize ∧
  match x.1 with
  | .error _ => ∃ h' e' g', Played n b0 first limit h' e' g' ∧ movesOf x.2.r = h'
  | .ok () => ∃ h' e', Played n b0 first limit h' e' x.2.game ∧
      (movesOf x.2.r = h' ∨ ∃ m c r, h' = movesOf x.2.r ++ [m] ∧ e' = some (.forfeited c r)) ∧
      (x.2.game.isOver = false → movesOf x.2.r = h' ∧ h'.length = h.length + 1)

theorem recordMove_off (hn : n ≤ 25) {g : Game} (hb : ReachableBoard n b0) (hp : Played n b0 first limit h e g)
    (c : Colour) (p : Pt) (hoff : ¬ OnBoard n p) : ∃ x, (g.recordMove c (some p)).1 = .error x := by
  have hi := hp.inv hn hb.inv
  unfold Game.recordMove
  split
  · exact ⟨_, rfl⟩
  · split
    · exact ⟨_, rfl⟩
    · have hko : ¬ (some p = g.simpleKoPoint) := fun hk => hoff (hi.koOn p hk.symm)
      have hplay : g.board.play p.1 p.2 c = .error .indexError := by
        apply playWith_off hi.board.wf
        rw [hi.board.side]; exact hoff
      simp only [hko, if_false, hplay]
      exact ⟨_, rfl⟩

theorem record_spec (B : Backend σ) (s : Run σ) (f : Game → Except GExc Unit × Game) :
    (s.record B f).2.game = (f s.game).2 ∧ (∃ env, (s.record B f).2.r = { s.r with env := env }) ∧
    ((s.record B f).1 = .ok () → (f s.game).1 = .ok ()) := by
  unfold Run.record
  simp only
  rcases hx : (f s.game).1 with x | x
  · exact ⟨rfl, ⟨s.r.env, rfl⟩, by simp⟩
  · simp only
    split
    · exact ⟨rfl, ⟨s.r.env, rfl⟩, by simp⟩
    · exact ⟨rfl, ⟨_, rfl⟩, by simp⟩

theorem call_spec {α} (s : Run σ) (f : σ → Except GExc α × σ) :
    (s.call f).2.game = s.game ∧ ∃ env, (s.call f).2.r = { s.r with env := env } := ⟨rfl, ⟨_, rfl⟩⟩

theorem diag_spec (s : Run σ) (c : Colour) (m : Option Str) :
    (s.setFinalDiagnostics c m).game = s.game ∧ (s.setFinalDiagnostics c m).r.moves = s.r.moves ∧
    (s.setFinalDiagnostics c m).r.result = s.r.result ∧ (s.setFinalDiagnostics c m).r.boardSize = s.r.boardSize := by
  unfold Run.setFinalDiagnostics
  cases m <;> simp

/-- Same reported moves, result and board size. -/
structure SameR (a b : Runner σ) : Prop where
  moves : a.moves = b.moves
  result : a.result = b.result
  size : a.boardSize = b.boardSize

theorem SameR.rfl' (a : Runner σ) : SameR a a := ⟨rfl, rfl, rfl⟩
theorem SameR.env {a b : Runner σ} (h : ∃ env, a = { b with env := env }) : SameR a b := by
  obtain ⟨env, rfl⟩ := h; exact ⟨rfl, rfl, rfl⟩
theorem SameR.trans {a b c : Runner σ} (h : SameR a b) (h' : SameR b c) : SameR a c :=
  ⟨h.moves.trans h'.moves, h.result.trans h'.result, h.size.trans h'.size⟩

theorem turn_error {s s' : Run σ} {x : GExc} (hs : SameR s'.r s.r) (hm : movesOf s.r = h) {g : Game}
    (hp : Played n b0 first limit h e g) : TurnSpec n b0 first limit h s (.error x, s') :=
  ⟨hs.result, hs.size, h, e, g, hp, by rw [← hm]; unfold movesOf; rw [hs.moves]⟩

theorem over_of_ending (hn : n ≤ 25) (hb : ReachableBoard n b0) {g : Game} {x : Ending}
    (hp : Played n b0 first limit h (some x) g) : g.isOver = true := by
  rw [(hp.inv hn hb.inv).over]; simp

theorem turn_ended (hn : n ≤ 25) (hb : ReachableBoard n b0) {s s' : Run σ} {x : Ending} (hs : SameR s'.r s.r) (hm : movesOf s.r = h)
    (hp : Played n b0 first limit h (some x) s'.game) : TurnSpec n b0 first limit h s (.ok (), s') := by
  refine ⟨hs.result, hs.size, h, _, hp, Or.inl (by rw [← hm]; unfold movesOf; rw [hs.moves]), ?_⟩
  intro ho
  rw [over_of_ending hn hb hp] at ho; cases ho

theorem endedByPlayer_spec (hn : n ≤ 25) (hb : ReachableBoard n b0) (B : Backend σ) (c : Colour) {s s1 : Run σ} {x : Ending}
    (hs : SameR s1.r s.r) (hm : movesOf s.r = h) (hp : Played n b0 first limit h (some x) s1.game) :
    TurnSpec n b0 first limit h s (endedByPlayer B c s1) := by
  unfold endedByPlayer andThen
  rcases hc : s1.call (B.getLastMoveComment c) with ⟨y | y, s2⟩
  · have := call_spec s1 (B.getLastMoveComment c)
    rw [hc] at this
    exact turn_error ((SameR.env this.2).trans hs) hm hp
  · have := call_spec s1 (B.getLastMoveComment c)
    rw [hc] at this
    have hd := diag_spec s2 c y
    refine turn_ended hn hb (x := x) ⟨?_, ?_, ?_⟩ hm ?_
    · rw [hd.2.1]; exact ((SameR.env this.2).trans hs).moves
    · rw [hd.2.2.1]; exact ((SameR.env this.2).trans hs).result
    · rw [hd.2.2.2]; exact ((SameR.env this.2).trans hs).size
    · show Played n b0 first limit h _ (s2.setFinalDiagnostics c y).game
      rw [hd.1, this.1]; exact hp

theorem recorded_end (hn : n ≤ 25) (hb : ReachableBoard n b0) (B : Backend σ) (c : Colour) {s s1 : Run σ} {x : Ending}
    (f : Game → Except GExc Unit × Game) (hs : SameR s1.r s.r) (hm : movesOf s.r = h)
    (hp : Played n b0 first limit h e s1.game)
    (hf : ∃ g', f s1.game = (.ok (), g') ∧ Played n b0 first limit h (some x) g') :
    TurnSpec n b0 first limit h s (andThen (s1.record B f) fun _ s => endedByPlayer B c s) := by
  unfold andThen
  have hr := record_spec B s1 f
  rcases hc : s1.record B f with ⟨y | y, s2⟩
  · rw [hc] at hr
    exact turn_error ((SameR.env hr.2.1).trans hs) hm hp
  · rw [hc] at hr
    obtain ⟨g', h1, h2⟩ := hf
    refine endedByPlayer_spec hn hb B c (x := x) ((SameR.env hr.2.1).trans hs) hm ?_
    rw [hr.1, h1]; exact h2

theorem playMove_spec (hn : n ≤ 25) (hb : ReachableBoard n b0) (B : Backend σ) {s s1 : Run σ} (hs : SameR s1.r s.r)
    (hm : movesOf s.r = h) (hp : Played n b0 first limit h e s1.game) (ho : s1.game.isOver = false) (m : Option Pt) :
    TurnSpec n b0 first limit h s (playMove B (toPlay first h.length) m s1) := by
  unfold playMove andThen
  have hr := record_spec B s1 (fun g => g.recordMove (toPlay first h.length) m)
  generalize hc0 : toPlay first h.length = c at *
  rcases hc : s1.record B (fun g => g.recordMove c m) with ⟨y | y, s2⟩
  · rw [hc] at hr
    exact turn_error ((SameR.env hr.2.1).trans hs) hm hp
  rw [hc] at hr
  have hrok := hr.2.2 rfl
  have hs2 : SameR s2.r s.r := (SameR.env hr.2.1).trans hs
  have hg2 : s1.game.recordMove c m = (.ok (), s2.game) := by
    rw [Prod.ext_iff]; exact ⟨hrok, hr.1.symm⟩
  have hon : ∀ p, m = some p → OnBoard n p := by
    rintro p rfl
    apply Classical.byContradiction
    intro hoff
    obtain ⟨x, hx⟩ := recordMove_off hn hb hp c p hoff
    rw [hg2] at hx; cases hx
  simp only
  have hcs := call_spec s2 (B.getLastMoveComment c)
  rcases hcc : s2.call (B.getLastMoveComment c) with ⟨y | comment, s3⟩
  · rw [hcc] at hcs
    exact turn_error ((SameR.env hcs.2).trans hs2) hm hp
  rw [hcc] at hcs
  have hs3 : SameR s3.r s.r := (SameR.env hcs.2).trans hs2
  have hg3 : s3.game = s2.game := hcs.1
  simp only
  split
  · rename_i hsf
    rw [hg3] at hsf
    cases m with
    | none =>
      have := C28_pass hn hb hp ho
      rw [hc0] at this
      obtain ⟨g', h1, h2, _⟩ := this
      rw [hg2] at h1; cases h1; rw [hsf] at h2; cases h2
    | some p =>
      have hp2 := Played.illegal c p hp (hon p rfl) hg2 hsf
      have hd := diag_spec s3 c comment
      refine turn_ended hn hb (x := .illegal c p) ⟨?_, ?_, ?_⟩ hm ?_
      · rw [hd.2.1]; exact hs3.moves
      · rw [hd.2.2.1]; exact hs3.result
      · rw [hd.2.2.2]; exact hs3.size
      · show Played n b0 first limit h _ (s3.setFinalDiagnostics c comment).game
        rw [hd.1, hg3]; exact hp2
  · rename_i hsf
    rw [hg3] at hsf
    have hp2 := Played.move c m hp hon hg2 (by simpa using hsf)
    have hns := call_spec s3 (B.notifyMove c.opponent m)
    rcases hnn : s3.call (B.notifyMove c.opponent m) with ⟨y | sm, s4⟩
    · rw [hnn] at hns
      exact turn_error ((SameR.env hns.2).trans hs3) hm hp
    rw [hnn] at hns
    have hs4 : SameR s4.r s.r := (SameR.env hns.2).trans hs3
    have hg4 : s4.game = s2.game := hns.1.trans hg3
    simp only
    split
    · exact turn_error hs4 hm hp
    split
    · rename_i hrej
      have hr5 := record_spec B s4 (fun g => g.recordForfeitBy (if sm.1 = Status.reject then c else c.opponent) sm.2)
      rcases hc5 : s4.record B (fun g => g.recordForfeitBy (if sm.1 = Status.reject then c else c.opponent) sm.2) with ⟨y | y, s5⟩
      · rw [hc5] at hr5
        exact turn_error ((SameR.env hr5.2.1).trans hs4) hm hp
      rw [hc5] at hr5
      have hok := hr5.2.2 rfl
      have hg5 : s4.game.recordForfeitBy (if sm.1 = Status.reject then c else c.opponent) sm.2 = (.ok (), s5.game) := by
        rw [Prod.ext_iff]; exact ⟨hok, hr5.1.symm⟩
      rw [hg4] at hg5
      have hp5 := Played.forfeit _ _ hp2 hg5
      have hs5 : SameR s5.r s.r := (SameR.env hr5.2.1).trans hs4
      have hd := diag_spec s5 c comment
      simp only
      have hmoves : movesOf (s5.setFinalDiagnostics c comment).r = h := by
        rw [← hm]; unfold movesOf; rw [hd.2.1, hs5.moves]
      refine ⟨by rw [hd.2.2.1]; exact hs5.result, by rw [hd.2.2.2]; exact hs5.size, h ++ [(c, m)], _, by rw [hd.1]; exact hp5, ?_, ?_⟩
      · exact Or.inr ⟨_, _, _, by rw [hmoves], rfl⟩
      · intro hno
        simp only at hno
        rw [hd.1, over_of_ending hn hb hp5] at hno; cases hno
    · have hfin := call_spec ({ s4 with r := { s4.r with moves := s4.r.moves ++ [(c, m, comment)] } } : Run σ) (B.afterMove c m s4.game.board)
      rcases hff : ({ s4 with r := { s4.r with moves := s4.r.moves ++ [(c, m, comment)] } } : Run σ).call (B.afterMove c m s4.game.board) with ⟨y | y, s6⟩
      · rw [hff] at hfin
        obtain ⟨henv, hr6⟩ := hfin.2
        simp only at hr6
        have hmv : movesOf s6.r = h ++ [(c, m)] := by
          rw [hr6, ← hm]; simp [movesOf, hs4.moves]
        exact ⟨by rw [hr6]; exact hs4.result, by rw [hr6]; exact hs4.size, _, _, _, hp2, hmv⟩
      · rw [hff] at hfin
        obtain ⟨henv, hr6⟩ := hfin.2
        simp only at hr6
        have hmv : movesOf s6.r = h ++ [(c, m)] := by
          rw [hr6, ← hm]; simp [movesOf, hs4.moves]
        have hg6 : s6.game = s2.game := hfin.1.trans hg4
        refine ⟨by rw [hr6]; exact hs4.result, by rw [hr6]; exact hs4.size, h ++ [(c, m)], _, by rw [hg6]; exact hp2, Or.inl hmv, ?_⟩
        intro _
        exact ⟨hmv, by simp⟩

theorem doMove_spec (hn : n ≤ 25) (hb : ReachableBoard n b0) (B : Backend σ) {s : Run σ}
    (hm : movesOf s.r = h) (hp : Played n b0 first limit h e s.game) (ho : s.game.isOver = false) :
    TurnSpec n b0 first limit h s (doMove B s) := by
  have hi := hp.inv hn hb.inv
  unfold doMove
  rw [hi.next, ho]
  simp only [Bool.false_eq_true, if_false]
  generalize hc0 : toPlay first h.length = c at *
  unfold andThen
  have hcs := call_spec s (B.getMove c)
  rcases hcc : s.call (B.getMove c) with ⟨y | act, s1⟩
  · rw [hcc] at hcs
    exact turn_error (SameR.env hcs.2) hm hp
  rw [hcc] at hcs
  have hs1 := SameR.env hcs.2
  have hg1 : s1.game = s.game := hcs.1
  have hp1 : Played n b0 first limit h e s1.game := by rw [hg1]; exact hp
  have ho1 : s1.game.isOver = false := by rw [hg1]; exact ho
  simp only
  cases act with
  | forfeit msg => exact recorded_end hn hb B c _ hs1 hm hp1 ((C26_accepts hp1 ho1 c (some msg)).2.2)
  | resign => exact recorded_end hn hb B c _ hs1 hm hp1 ((C26_accepts hp1 ho1 c none).1)
  | claim => exact recorded_end hn hb B c _ hs1 hm hp1 ((C26_accepts hp1 ho1 c none).2.1)
  | move m =>
    have := playMove_spec hn hb B hs1 hm hp1 ho1 m
    rw [hc0] at this
    exact this
  | bad => exact turn_error hs1 hm hp

/-- The outcome of the main loop. -/
def LoopSpec (n : Nat) (b0 : Board) (first : Colour) (limit : Option Int) (s : Run σ) (x : Except GExc Unit × Run σ) : Prop :=
  x.2.r.result = s.r.result ∧ x.2.r.boardSize = s.r.boardSize ∧
  match x.1 with
  | .error _ => ∃ h' e' g', Played n b0 first limit h' e' g' ∧ movesOf x.2.r = h'
  | .ok () => ∃ h' e', Played n b0 first limit h' e' x.2.game ∧ x.2.game.isOver = true ∧
      (movesOf x.2.r = h' ∨ ∃ m c r, h' = movesOf x.2.r ++ [m] ∧ e' = some (.forfeited c r))

theorem runLoop_spec (hn : n ≤ 25) (hb : ReachableBoard n b0) (B : Backend σ) : ∀ (fuel : Nat) (s : Run σ) (h : List Mv)
    (e : Option Ending), Played n b0 first limit h e s.game →
    (movesOf s.r = h ∨ ∃ m c r, h = movesOf s.r ++ [m] ∧ e = some (.forfeited c r)) →
    (s.game.isOver = false → movesOf s.r = h) → ∀ x, runLoop B fuel s = some x → LoopSpec n b0 first limit s x := by
  intro fuel
  induction fuel with
  | zero =>
    intro s h e hp hm hm' x hx
    rw [runLoop] at hx
    split at hx
    · rename_i ho
      cases hx
      exact ⟨rfl, rfl, h, e, hp, ho, hm⟩
    · cases hx
  | succ fuel ih =>
    intro s h e hp hm hm' x hx
    rw [runLoop] at hx
    split at hx
    · rename_i ho
      cases hx
      exact ⟨rfl, rfl, h, e, hp, ho, hm⟩
    · rename_i ho
      have ho' : s.game.isOver = false := by simpa using ho
      have ht := doMove_spec hn hb B (hm' ho') hp ho'
      rcases hd : doMove B s with ⟨y | y, s'⟩
      · rw [hd] at hx ht
        cases hx
        exact ht
      · rw [hd] at hx ht
        obtain ⟨h1, h2, h', e', h3, h4, h5⟩ := ht
        have := ih s' h' e' h3 h4 (fun z => (h5 z).1) x hx
        exact ⟨this.1.trans h1, this.2.1.trans h2, this.2.2⟩

theorem runLoop_terminates (hn : n ≤ 25) (hb : ReachableBoard n b0) (B : Backend σ) (lim : Int) : ∀ (fuel : Nat) (s : Run σ) (h : List Mv)
    (e : Option Ending), Played n b0 first (some lim) h e s.game →
    (s.game.isOver = false → movesOf s.r = h) → (s.game.isOver = false → max lim.toNat 1 ≤ fuel + h.length) →
    ∃ x, runLoop B fuel s = some x := by
  have hlive : ∀ {h e g}, Played n b0 first (some lim) h e g → g.isOver = false → h.length < max lim.toNat 1 := by
    intro h e g hp ho
    have hl := ((hp.inv hn hb.inv).live ho).2.2
    apply Classical.byContradiction
    intro hge
    apply hl
    exact ⟨lim, rfl, by omega, by rintro rfl; simp at hge⟩
  intro fuel
  induction fuel with
  | zero =>
    intro s h e hp hm hf
    rw [runLoop]
    split
    · exact ⟨_, rfl⟩
    · rename_i ho
      have ho' : s.game.isOver = false := by simpa using ho
      have := hlive hp ho'; have := hf ho'
      omega
  | succ fuel ih =>
    intro s h e hp hm hf
    rw [runLoop]
    split
    · exact ⟨_, rfl⟩
    · rename_i ho
      have ho' : s.game.isOver = false := by simpa using ho
      have ht := doMove_spec hn hb B (hm ho') hp ho'
      rcases hd : doMove B s with ⟨y | y, s'⟩
      · exact ⟨_, rfl⟩
      · rw [hd] at ht
        obtain ⟨h1, h2, h', e', h3, h4, h5⟩ := ht
        refine ih s' h' e' h3 (fun z => (h5 z).1) (fun z => ?_)
        have := hf ho'; have := (h5 z).2
        omega

theorem runLoop_mono (B : Backend σ) : ∀ (f f' : Nat) (s : Run σ) (x), f ≤ f' → runLoop B f s = some x → runLoop B f' s = some x := by
  intro f
  induction f with
  | zero =>
    intro f' s x _ hx
    rw [runLoop] at hx
    split at hx
    · rename_i ho
      cases f' <;> rw [runLoop, if_pos ho] <;> exact hx
    · cases hx
  | succ f ih =>
    intro f' s x hf hx
    cases f' with
    | zero => omega
    | succ f' =>
      rw [runLoop] at hx ⊢
      split at hx
      · rename_i ho; rw [if_pos ho]; exact hx
      · rename_i ho
        rw [if_neg ho]
        rcases hd : doMove B s with ⟨y | y, s'⟩
        · rw [hd] at hx; exact hx
        · rw [hd] at hx; exact ih f' s' x (by omega) hx

/-! ### Before the run -/

/-- A Game_runner on which `prepare` and `set_handicap` may have been called (any number of times, whatever happened).  The backend's state may
change between the calls. -/
inductive Prepared (B : Backend σ) : Runner σ → Prop
  | init (env : σ) (size : Nat) (komi : Rat) (limit : Option Int) : Prepared B (.init env size komi limit)
  | prepare {r : Runner σ} : Prepared B r → Prepared B (r.prepare B).2
  | handicap {r : Runner σ} (k : Int) (free : Bool) : Prepared B r → Prepared B (r.setHandicap B k free).2
  | backend {r : Runner σ} (env : σ) : Prepared B r → Prepared B { r with env := env }

theorem finishHandicap_moves (r : Runner σ) (k : Int) (p : List Pt) :
    (r.finishHandicap k p).2.moves = r.moves ∧ (r.finishHandicap k p).2.result = r.result := ⟨rfl, rfl⟩

theorem Prepared.fresh {B : Backend σ} {r : Runner σ} (h : Prepared B r) : r.moves = [] ∧ r.result = none := by
  induction h with
  | init => exact ⟨rfl, rfl⟩
  | @prepare r _ ih =>
    unfold Runner.prepare
    split
    · exact ih
    · rcases hc : r.call (B.startNewGame r.boardSize r.komi) with ⟨y | y, r'⟩
      · have : r' = { r with env := r'.env } := by
          have := congrArg Prod.snd hc; simp only [Runner.call] at this; rw [← this]
        simp only; rw [this]; exact ih
      · have : r' = { r with env := r'.env } := by
          have := congrArg Prod.snd hc; simp only [Runner.call] at this; rw [← this]
        simp only; rw [this]; exact ih
  | @handicap r k free _ ih =>
    unfold Runner.setHandicap
    split
    · exact ih
    · split
      · split
        · exact ih
        · simp only [Runner.call]
          rcases (B.getFreeHandicap k r.env) with ⟨y | y, env⟩
          · exact ih
          · simp only
            rcases (B.notifyFreeHandicap y env) with ⟨z | z, env'⟩ <;> exact ih
      · split
        · exact ih
        · rename_i pts _
          simp only [Runner.call]
          rcases (B.notifyFixedHandicap .b k pts r.env) with ⟨y | y, env⟩
          · exact ih
          · simp only
            rcases (B.notifyFixedHandicap .w k pts env) with ⟨z | z, env'⟩ <;> exact ih
  | backend env _ ih => exact ih

/-- The starting position: Black's handicap stones. -/
def handicapPosition (r : Runner σ) : Position := fun p =>
  if p ∈ r.handicapStones.getD [] then some .b else none

open Classical in
/-- A board with the starting position of the game: the handicap stones, which are on the board (if they cover all of it,
they are captured). -/
structure StartBoard (r : Runner σ) (b0 : Board) : Prop where
  reachable : ReachableBoard r.boardSize b0
  onBoard : ∀ p ∈ r.handicapStones.getD [], OnBoard r.boardSize p
  stones : ∀ p, b0.pos p = if ∃ q, OnBoard r.boardSize q ∧ q ∉ r.handicapStones.getD [] then handicapPosition r p else none

theorem makeGame_spec {r : Runner σ} {g : Game} (hg : r.makeGame = .ok g) :
    ∃ b0 first, StartBoard r b0 ∧ g = Game.init b0 first r.moveLimit ∧
      first = (if r.handicapStones.getD [] = [] then .b else .w) := by
  unfold Runner.makeGame at hg
  rcases hb : Board.init r.boardSize with x | b
  · rw [hb] at hg; cases hg
  · rw [hb] at hg
    simp only at hg
    obtain ⟨_, _, _, _, hpos⟩ := init_spec hb
    have hno : r.handicapStones.getD [] = [] → StartBoard r b := by
      intro heq
      refine ⟨⟨b, [], hb, rfl⟩, by rw [heq]; simp, ?_⟩
      intro p
      rw [hpos]
      split <;> simp [handicapPosition, heq]
    split at hg
    · rename_i heq; cases hg; exact ⟨b, .b, hno (by rw [heq]; rfl), rfl, by simp [heq]⟩
    · rename_i heq; cases hg; exact ⟨b, .b, hno (by rw [heq]; rfl), rfl, by simp [heq]⟩
    · rename_i p ps heq
      rcases hs : b.applySetup (p :: ps) [] [] with x | ⟨l, b'⟩
      · rw [hs] at hg; cases hg
      · rw [hs] at hg
        cases hg
        have hbr : ReachableBoard r.boardSize b := ⟨b, [], hb, rfl⟩
        unfold Board.applySetup at hs
        have hon : ∀ q ∈ p :: ps, OnBoard r.boardSize q := by
          intro q hq
          by_contra hn
          rw [C09_apply_setup_range hbr defaultPops (p :: ps) [] [] ⟨q, by simp at hq ⊢; exact hq, hn⟩] at hs
          cases hs
        refine ⟨b', .w, ⟨⟨b, [.setup defaultPops (p :: ps) [] []], hb, ?_⟩, by rw [heq]; exact hon, ?_⟩, rfl, by simp [heq]⟩
        · simp only [List.foldl_cons, List.foldl_nil, stepBoard]
          rw [hs]
        · obtain ⟨ok, b'', e1, _, e3, _⟩ := C09_apply_setup hbr defaultPops (p :: ps) [] [] (by simpa using hon)
          rw [hs] at e1
          cases e1
          have hsp : setupPos b.pos (p :: ps) [] [] = handicapPosition r := by
            funext q
            simp [setupPos, handicapPosition, heq, hpos]
          rw [hsp] at e3
          have hcol : ∀ q d, handicapPosition r q = some d → d = .b := by
            intro q d hq
            unfold handicapPosition at hq
            split at hq <;> cases hq
            rfl
          intro q
          rw [e3]
          unfold remove
          by_cases hex : ∃ q, OnBoard r.boardSize q ∧ q ∉ r.handicapStones.getD []
          · rw [if_pos hex]
            obtain ⟨e, he1, he2⟩ := hex
            rw [if_neg]
            rintro ⟨c, hd⟩
            refine hd.2.2 (one_colour_liberty (c := .b) ?_ hd.1 he1 (by unfold handicapPosition; rw [if_neg he2]) ?_)
            · intro x _ hx
              exact absurd (hcol _ _ hx) (by decide)
            · rw [hd.2.1]
              rw [hcol _ _ hd.2.1]
          · have hall := hex
            rw [if_neg hex]
            push Not at hall
            split
            · rfl
            rename_i hnd
            cases hq : handicapPosition r q with
            | none => rfl
            | some d =>
              exfalso
              have hqon : OnBoard r.boardSize q := by
                by_contra hno
                have : q ∈ r.handicapStones.getD [] := by
                  unfold handicapPosition at hq
                  split at hq
                  · assumption
                  · cases hq
                rw [heq] at this
                exact hno (hon q this)
              refine hnd ⟨d, hqon, hq, ?_⟩
              rintro ⟨x, y, _, _, hy, hye⟩
              unfold handicapPosition at hye
              rw [if_pos (hall y hy)] at hye
              cases hye

/-! ## C31 -/

/-- C31: with a move limit, every run finishes, whatever the players do, within that number of turns. -/
theorem C31_terminates (B : Backend σ) (fmt : Rat → Str) (r : Runner σ) (hr : Prepared B r) (hn : r.boardSize ≤ 25)
    (lim : Int) (hlim : r.moveLimit = some lim) (fuel : Nat) (hf : max lim.toNat 1 ≤ fuel) :
    ∃ x, r.run B fmt fuel = some x := by
  unfold Runner.run
  split
  · exact ⟨_, rfl⟩
  · rcases hg : r.makeGame with x | g
    · exact ⟨_, rfl⟩
    · obtain ⟨b0, first, hbs, rfl, _⟩ := makeGame_spec hg
      have hb := hbs.reachable
      have hpl : Played r.boardSize b0 first (some lim) [] none (Game.init b0 first r.moveLimit) := by
        rw [hlim]; exact Played.start
      obtain ⟨x, hx⟩ := runLoop_terminates hn hb B lim fuel ⟨{ r with state := 3 }, Game.init b0 first r.moveLimit⟩ [] none
        hpl (fun _ => by simp [movesOf, hr.fresh.1]) (fun _ => by simp; omega)
      simp only [hx]
      exact ⟨_, rfl⟩

/-- C31: the number of turns allowed doesn't affect the outcome. -/
theorem C31_fuel (B : Backend σ) (fmt : Rat → Str) (r : Runner σ) (f f' : Nat) (hf : f ≤ f') (x)
    (hx : r.run B fmt f = some x) : r.run B fmt f' = some x := by
  unfold Runner.run at hx ⊢
  split at hx
  · rename_i h1; rw [if_pos h1]; exact hx
  · rename_i h1; rw [if_neg h1]
    rcases hg : r.makeGame with y | g
    · rw [hg] at hx; exact hx
    · rw [hg] at hx
      simp only at hx ⊢
      rcases hl : runLoop B f ⟨{ r with state := 3 }, g⟩ with _ | y
      · rw [hl] at hx; cases hx
      · rw [hl] at hx; rw [runLoop_mono B f f' _ y hf hl]; exact hx

theorem setResult_moves (B : Backend σ) (fmt : Rat → Str) (s : Run σ) :
    (setResult B fmt s).2.r.moves = s.r.moves ∧ (setResult B fmt s).2.game = s.game ∧
    (∀ x, (setResult B fmt s).1 = .error x → (setResult B fmt s).2.r.result = s.r.result) := by
  unfold setResult
  split
  · unfold andThen
    rcases hc : s.call (B.scoreGame s.game.board) with ⟨y | y, s'⟩
    · have := congrArg Prod.snd hc
      simp only [Run.call] at this
      subst this
      exact ⟨rfl, rfl, fun _ _ => rfl⟩
    · have := congrArg Prod.snd hc
      simp only [Run.call] at this
      subst this
      simp only
      split
      · exact ⟨rfl, rfl, fun _ _ => rfl⟩
      · exact ⟨rfl, rfl, by simp⟩
  · split
    · exact ⟨rfl, rfl, fun _ _ => rfl⟩
    · exact ⟨rfl, rfl, by simp⟩

/-- C31: whatever the players do, and whether or not an exception is propagated: the moves reported are moves recorded in
a game played by the rules from the handicap position (so they alternate, and are legal), namely all of them except that a last one which the
opponent refused (and so forfeited the game for one side) is left out.  `result` is set exactly if no exception is
propagated; then the game is over, and a passed-out game has been scored. -/
theorem C31_run (B : Backend σ) (fmt : Rat → Str) (r : Runner σ) (hr : Prepared B r) (hn : r.boardSize ≤ 25)
    (fuel : Nat) (res : Except GExc Unit) (r' : Runner σ) (game : Option Game) (hrun : r.run B fmt fuel = some (res, r', game)) :
    (movesOf r' = [] ∨ ∃ b0 first h e g, StartBoard r b0 ∧
        first = (if r.handicapStones.getD [] = [] then .b else .w) ∧
        Played r.boardSize b0 first r.moveLimit h e g ∧
        (movesOf r' = h ∨ ∃ m c x, h = movesOf r' ++ [m] ∧ e = some (.forfeited c x))) ∧
    (∀ x, res = .error x → r'.result = none) ∧
    (res = .ok () → ∃ b0 h e g, StartBoard r b0 ∧ game = some g ∧ (movesOf r' = h ∨ ∃ m c x, h = movesOf r' ++ [m] ∧ e = some (.forfeited c x)) ∧
        Played r.boardSize b0 (if r.handicapStones.getD [] = [] then .b else .w) r.moveLimit h e g ∧ g.isOver = true ∧
        ∃ rr, r'.result = some rr ∧
          (g.passedOut = true → ∃ sc env, r'.gameScore = some sc ∧ (B.scoreGame g.board env).1 = .ok sc ∧ Res.fromGameScore fmt sc = .ok rr) ∧
          (g.passedOut = false → Res.fromUnscoredGame g = .ok rr ∧ rr.winningColour = e.map Ending.winner)) := by
  unfold Runner.run at hrun
  split at hrun
  · cases hrun
    exact ⟨Or.inl (by simp [movesOf, hr.fresh.1]), fun _ _ => hr.fresh.2, by simp⟩
  · rcases hg : r.makeGame with x | g0
    · rw [hg] at hrun; cases hrun
      exact ⟨Or.inl (by simp [movesOf, hr.fresh.1]), fun _ _ => hr.fresh.2, by simp⟩
    · rw [hg] at hrun
      obtain ⟨b0, first, hbs, rfl, hfirst⟩ := makeGame_spec hg
      have hb := hbs.reachable
      simp only at hrun
      rcases hl : runLoop B fuel ⟨{ r with state := 3 }, Game.init b0 first r.moveLimit⟩ with _ | x
      · rw [hl] at hrun; cases hrun
      · rw [hl] at hrun
        have hspec := runLoop_spec hn hb B fuel ⟨{ r with state := 3 }, Game.init b0 first r.moveLimit⟩ [] none
          Played.start (Or.inl (by simp [movesOf, hr.fresh.1])) (fun _ => by simp [movesOf, hr.fresh.1]) x hl
        obtain ⟨hres, hsize, hrest⟩ := hspec
        simp only at hres hsize
        obtain ⟨y, s⟩ := x
        cases y with
        | error x =>
          simp only [andThen] at hrun hrest
          cases hrun
          obtain ⟨h', e', g', h1, h2⟩ := hrest
          exact ⟨Or.inr ⟨b0, first, h', e', g', hbs, hfirst, h1, Or.inl h2⟩, fun _ _ => by rw [hres]; exact hr.fresh.2, by simp⟩
        | ok u =>
          simp only [andThen] at hrun hrest
          obtain ⟨h', e', h1, h2, h3⟩ := hrest
          obtain ⟨hm, hgm, herr⟩ := setResult_moves B fmt s
          simp only [Option.some.injEq, Prod.mk.injEq] at hrun
          obtain ⟨e1, e2, e3⟩ := hrun
          have hmoves : movesOf r' = movesOf s.r := by unfold movesOf; rw [← e2, hm]
          rw [hgm] at e3
          refine ⟨Or.inr ⟨b0, first, h', e', s.game, hbs, hfirst, h1, ?_⟩, ?_, ?_⟩
          · rw [hmoves]; exact h3
          · intro x hx
            rw [← e2, herr x (by rw [e1]; exact hx), hres]; exact hr.fresh.2
          · intro hok
            rw [hok] at e1
            refine ⟨b0, h', e', s.game, hbs, e3.symm, by rw [hmoves]; exact h3, by rw [← hfirst]; exact h1, h2, ?_⟩
            unfold setResult at e1 e2
            by_cases hpo : s.game.passedOut = true
            · rw [if_pos hpo] at e1 e2
              unfold andThen at e1 e2
              rcases hc : s.call (B.scoreGame s.game.board) with ⟨y | sc, s'⟩
              · rw [hc] at e1; cases e1
              · rw [hc] at e1 e2
                simp only at e1 e2
                rcases hfg : Res.fromGameScore fmt sc with y | rr
                · rw [hfg] at e1; cases e1
                · rw [hfg] at e2
                  simp only at e2
                  refine ⟨rr, by rw [← e2], fun _ => ⟨sc, s.r.env, by rw [← e2], by have := congrArg Prod.fst hc; exact this, hfg⟩, fun hx => ?_⟩
                  rw [hpo] at hx; cases hx
            · rw [if_neg hpo] at e1 e2
              have hpo' : s.game.passedOut = false := by simpa using hpo
              obtain ⟨rr, hrr, hwc, _⟩ := C30_unscored hn hb h1 h2 hpo'
              rw [hrr] at e2
              simp only at e2
              exact ⟨rr, by rw [← e2], fun hx => absurd hx hpo, fun _ => ⟨hrr, hwc⟩⟩

/-- C31: the moves reported alternate, and are at most as many as the move limit. -/
theorem C31_moves (B : Backend σ) (fmt : Rat → Str) (r : Runner σ) (hr : Prepared B r) (hn : r.boardSize ≤ 25)
    (fuel : Nat) (res : Except GExc Unit) (r' : Runner σ) (game : Option Game) (hrun : r.run B fmt fuel = some (res, r', game)) :
    Alternates (if r.handicapStones.getD [] = [] then .b else .w) (movesOf r') ∧
    ∀ lim : Nat, 0 < lim → r.moveLimit = some (lim : Int) → (movesOf r').length ≤ lim := by
  obtain ⟨h1, _⟩ := C31_run B fmt r hr hn fuel res r' game hrun
  rcases h1 with h1 | ⟨b0, first, h, e, g, hb, hf, hp, hm⟩
  · rw [h1]; exact ⟨by simp [Alternates], by simp⟩
  · have hb := hb.reachable
    have ha := (C27_passes_and_limit hn hb hp).2.2.2.1
    subst hf
    constructor
    · rcases hm with hm | ⟨m, c, x, hm, _⟩
      · rw [hm]; exact ha
      · intro k mv hk
        apply ha k mv
        rw [hm, List.getElem?_append_left]
        · exact hk
        · obtain ⟨hlt, _⟩ := List.getElem?_eq_some_iff.1 hk; exact hlt
    · intro lim hpos hlim
      rw [hlim] at hp
      have := C27_limit_bound hn hb hpos hp
      rcases hm with hm | ⟨m, c, x, hm, _⟩
      · rw [hm]; exact this
      · rw [hm] at this; simp at this; omega

/-- A backend whose bookkeeping methods, and the after-move callback, don't raise. -/
structure Quiet (B : Backend σ) : Prop where
  endGame : ∀ env, (B.endGame env).1 = .ok ()
  comment : ∀ c env, ∃ x, (B.getLastMoveComment c env).1 = .ok x
  after : ∀ c m b env, (B.afterMove c m b env).1 = .ok ()

theorem record_quiet {B : Backend σ} (hq : Quiet B) (s : Run σ) (f : Game → Except GExc Unit × Game) {g : Game}
    (hf : f s.game = (.ok (), g)) : ∃ env, s.record B f = (.ok (), ⟨{ s.r with env := env }, g⟩) := by
  unfold Run.record
  rw [hf]
  simp only
  split
  · exact ⟨s.r.env, rfl⟩
  · refine ⟨(B.endGame s.r.env).2, ?_⟩
    simp only [Run.call, hq.endGame]

theorem comment_quiet {B : Backend σ} (hq : Quiet B) (s : Run σ) (c : Colour) :
    ∃ x env, s.call (B.getLastMoveComment c) = (.ok x, { s with r := { s.r with env := env } }) := by
  obtain ⟨x, hx⟩ := hq.comment c s.r.env
  exact ⟨x, (B.getLastMoveComment c s.r.env).2, by simp only [Run.call, hx]⟩

theorem endedByPlayer_quiet {B : Backend σ} (hq : Quiet B) (s : Run σ) (c : Colour) :
    ∃ s', endedByPlayer B c s = (.ok (), s') ∧ s'.game = s.game ∧ s'.r.moves = s.r.moves := by
  obtain ⟨x, env, hx⟩ := comment_quiet hq s c
  unfold endedByPlayer andThen
  rw [hx]
  have := diag_spec ({ s with r := { s.r with env := env } } : Run σ) c x
  exact ⟨_, rfl, this.1, this.2.1⟩

theorem doMove_start (hn : n ≤ 25) (hb : ReachableBoard n b0) (B : Backend σ) {s : Run σ}
    (hp : Played n b0 first limit h e s.game) (ho : s.game.isOver = false) {act : Act}
    (ha : (B.getMove (toPlay first h.length) s.r.env).1 = .ok act) :
    ∃ env, doMove B s = match act with
    | .forfeit msg =>
      andThen (Run.record B ⟨{ s.r with env := env }, s.game⟩ (fun g => g.recordForfeitBy (toPlay first h.length) (some msg))) fun _ s => endedByPlayer B (toPlay first h.length) s
    | .resign => andThen (Run.record B ⟨{ s.r with env := env }, s.game⟩ (fun g => g.recordResignationBy (toPlay first h.length))) fun _ s => endedByPlayer B (toPlay first h.length) s
    | .claim => andThen (Run.record B ⟨{ s.r with env := env }, s.game⟩ (fun g => g.recordClaimBy (toPlay first h.length))) fun _ s => endedByPlayer B (toPlay first h.length) s
    | .move m => playMove B (toPlay first h.length) m ⟨{ s.r with env := env }, s.game⟩
    | .bad => (.error (.py .valueError), ⟨{ s.r with env := env }, s.game⟩) := by
  have hi := hp.inv hn hb.inv
  refine ⟨(B.getMove (toPlay first h.length) s.r.env).2, ?_⟩
  unfold doMove
  rw [hi.next, ho]
  simp only [Bool.false_eq_true, if_false]
  simp only [Run.call, ha]
  rfl

/-- C31: a resignation, claim or forfeit by the player to move ends the game accordingly; no move is added. -/
theorem C31_resign_claim_forfeit (hn : n ≤ 25) (hb : ReachableBoard n b0) (B : Backend σ) (hq : Quiet B) {s : Run σ}
    (hp : Played n b0 first limit h e s.game) (ho : s.game.isOver = false) (act : Act) (x : Ending)
    (hx : (act = .resign ∧ x = .resigned (toPlay first h.length)) ∨ (act = .claim ∧ x = .claimed (toPlay first h.length)) ∨
      ∃ msg, act = .forfeit msg ∧ x = .forfeited (toPlay first h.length) (some msg))
    (ha : (B.getMove (toPlay first h.length) s.r.env).1 = .ok act) :
    ∃ s', doMove B s = (.ok (), s') ∧ Played n b0 first limit h (some x) s'.game ∧ s'.r.moves = s.r.moves := by
  obtain ⟨env, hd⟩ := doMove_start hn hb B hp ho ha
  rw [hd]
  rcases hx with ⟨rfl, rfl⟩ | ⟨rfl, rfl⟩ | ⟨msg, rfl, rfl⟩
  · obtain ⟨g', h1, h2⟩ := (C26_accepts hp ho (toPlay first h.length) none).1
    obtain ⟨env', h3⟩ := record_quiet hq ⟨{ s.r with env := env }, s.game⟩ (fun g => g.recordResignationBy (toPlay first h.length)) h1
    obtain ⟨s', h4, h5, h6⟩ := endedByPlayer_quiet hq ⟨{ s.r with env := env' }, g'⟩ (toPlay first h.length)
    simp only [h3, andThen]
    exact ⟨s', h4, by rw [h5]; exact h2, h6⟩
  · obtain ⟨g', h1, h2⟩ := (C26_accepts hp ho (toPlay first h.length) none).2.1
    obtain ⟨env', h3⟩ := record_quiet hq ⟨{ s.r with env := env }, s.game⟩ (fun g => g.recordClaimBy (toPlay first h.length)) h1
    obtain ⟨s', h4, h5, h6⟩ := endedByPlayer_quiet hq ⟨{ s.r with env := env' }, g'⟩ (toPlay first h.length)
    simp only [h3, andThen]
    exact ⟨s', h4, by rw [h5]; exact h2, h6⟩
  · obtain ⟨g', h1, h2⟩ := (C26_accepts hp ho (toPlay first h.length) (some msg)).2.2
    obtain ⟨env', h3⟩ := record_quiet hq ⟨{ s.r with env := env }, s.game⟩ (fun g => g.recordForfeitBy (toPlay first h.length) (some msg)) h1
    obtain ⟨s', h4, h5, h6⟩ := endedByPlayer_quiet hq ⟨{ s.r with env := env' }, g'⟩ (toPlay first h.length)
    simp only [h3, andThen]
    exact ⟨s', h4, by rw [h5]; exact h2, h6⟩

/-- C31: an illegal move forfeits the game for the player who made it; it isn't reported as a move, and (whatever
`notify_move` would do) the opponent isn't told of it. -/
theorem C31_illegal (hn : n ≤ 25) (hb : ReachableBoard n b0) (B : Backend σ) (hq : Quiet B) {s : Run σ}
    (hp : Played n b0 first limit h e s.game) (ho : s.game.isOver = false) (p : Pt) (hon : OnBoard n p)
    (hill : IllegalAt n b0.pos h p) (ha : (B.getMove (toPlay first h.length) s.r.env).1 = .ok (.move (some p))) :
    ∃ s', doMove B s = (.ok (), s') ∧ (∀ f, doMove { B with notifyMove := f } s = (.ok (), s')) ∧
      Played n b0 first limit h (some (.illegal (toPlay first h.length) p)) s'.game ∧ s'.r.moves = s.r.moves := by
  have hi := hp.inv hn hb.inv
  obtain ⟨g', h1, h2, h3, _⟩ := (recordMove_cases hn hi (toPlay first h.length) (some p) (by rintro q ⟨⟩; exact hon)).2.2 ho rfl p rfl hill
  have hp' := Played.illegal _ _ hp hon h1 h2
  have key : ∀ f, ∃ s', doMove { B with notifyMove := f } s = (.ok (), s') ∧ s'.game = g' ∧ s'.r.moves = s.r.moves ∧
      s' = (doMove B s).2 ∧ (doMove B s).1 = .ok () := by
    intro f
    have hq' : Quiet { B with notifyMove := f } := ⟨hq.endGame, hq.comment, hq.after⟩
    unfold doMove
    rw [hi.next, ho]
    simp only [Bool.false_eq_true, if_false]
    simp only [Run.call, ha]
    generalize (B.getMove (toPlay first h.length) s.r.env).2 = env
    simp only [andThen, playMove]
    obtain ⟨env1, h4⟩ := record_quiet hq ⟨{ s.r with env := env }, s.game⟩ (fun g => g.recordMove (toPlay first h.length) (some p)) h1
    have h4' : Run.record { B with notifyMove := f } ⟨{ s.r with env := env }, s.game⟩ (fun g => g.recordMove (toPlay first h.length) (some p))
        = (.ok (), ⟨{ s.r with env := env1 }, g'⟩) := h4
    obtain ⟨x, env2, h5⟩ := comment_quiet hq ⟨{ s.r with env := env1 }, g'⟩ (toPlay first h.length)
    simp only [Run.call] at h5
    simp only [h4, h4', Run.call, h5, h2, if_true]
    have hd := diag_spec ⟨{ s.r with env := env2 }, g'⟩ (toPlay first h.length) x
    exact ⟨_, rfl, hd.1, hd.2.1, rfl, trivial⟩
  obtain ⟨s', k1, k2, k3, k4, k5⟩ := key B.notifyMove
  refine ⟨s', ?_, ?_, ?_, ?_⟩
  · exact k1
  · intro f
    obtain ⟨s2, j1, j2, j3, j4, j5⟩ := key f
    rw [k4, ← j4]; exact j1
  · rw [k2]; exact hp'
  · exact k3

/-- C31: a legal move (or pass), and the opponent's reply to being told of it.  If it ends the game (second pass or move limit) the reply
doesn't matter.  Otherwise: accepted, the move is reported and the game goes on; rejected as illegal, the player who
made the move forfeits; any other error, the opponent forfeits.  A refused move isn't reported. -/
theorem C31_legal (hn : n ≤ 25) (hb : ReachableBoard n b0) (B : Backend σ) (hq : Quiet B) {s : Run σ}
    (hp : Played n b0 first limit h e s.game) (ho : s.game.isOver = false) (m : Option Pt)
    (hon : ∀ p, m = some p → OnBoard n p ∧ ¬ IllegalAt n b0.pos h p)
    (ha : (B.getMove (toPlay first h.length) s.r.env).1 = .ok (.move m))
    (st : Status) (msg : Option Str) (hst : st ≠ .bad)
    (hnot : ∀ env, (B.notifyMove (toPlay first h.length).opponent m env).1 = .ok (st, msg)) :
    ∃ s', doMove B s = (.ok (), s') ∧
      let h' := h ++ [(toPlay first h.length, m)]
      let ends := TwoPasses h' ∨ LimitReached limit h'
      ((ends ∨ st = .accept) → Played n b0 first limit h' none s'.game ∧
        ∃ comment, s'.r.moves = s.r.moves ++ [(toPlay first h.length, m, comment)]) ∧
      ((¬ ends ∧ st = .reject) → Played n b0 first limit h' (some (.forfeited (toPlay first h.length) msg)) s'.game ∧
        s'.r.moves = s.r.moves) ∧
      ((¬ ends ∧ st = .error) → Played n b0 first limit h' (some (.forfeited (toPlay first h.length).opponent msg)) s'.game ∧
        s'.r.moves = s.r.moves) := by
  have hi := hp.inv hn hb.inv
  obtain ⟨rfl, _⟩ := hi.live ho
  obtain ⟨g', h1, h2, h3⟩ := (recordMove_cases hn hi (toPlay first h.length) m (fun p hp => (hon p hp).1)).2.1 ho rfl (fun p hp => (hon p hp).2)
  have hp' := Played.move _ _ hp (fun p hp => (hon p hp).1) h1 h2
  have hover := h3.over
  simp only [ne_eq, not_true_eq_false, false_or] at hover
  obtain ⟨env0, hd⟩ := doMove_start hn hb B hp ho ha
  rw [hd]
  generalize hc0 : toPlay first h.length = c at *
  simp only [playMove]
  obtain ⟨env1, h4⟩ := record_quiet hq ⟨{ s.r with env := env0 }, s.game⟩ (fun g => g.recordMove c m) h1
  obtain ⟨x, env2, h5⟩ := comment_quiet hq ⟨{ s.r with env := env1 }, g'⟩ c
  simp only [h4, h5, andThen, h2, Bool.false_eq_true, if_false]
  simp only [Run.call, hnot]
  rw [if_neg hst]
  generalize (B.notifyMove c.opponent m env2).2 = env3
  by_cases hend : TwoPasses (h ++ [(c, m)]) ∨ LimitReached limit (h ++ [(c, m)])
  · have hov := hover.2 hend
    simp only [hov, Bool.not_true, Bool.false_eq_true, false_and, if_false, hq.after]
    refine ⟨_, rfl, fun _ => ⟨hp', x, rfl⟩, fun hx => absurd hend hx.1, fun hx => absurd hend hx.1⟩
  · have hov : g'.isOver = false := by rw [Bool.eq_false_iff]; exact fun z => hend (hover.1 z)
    cases st with
    | bad => exact absurd rfl hst
    | accept =>
      simp only [hov, Bool.not_false, ne_eq, not_true_eq_false, and_false, if_false, hq.after]
      refine ⟨_, rfl, fun _ => ⟨hp', x, rfl⟩, fun hx => absurd hx.2 (by simp), fun hx => absurd hx.2 (by simp)⟩
    | reject =>
      obtain ⟨g2, k1, k2⟩ := (C26_accepts hp' hov c msg).2.2
      obtain ⟨env4, k3⟩ := record_quiet hq ⟨{ s.r with env := env3 }, g'⟩ (fun g => g.recordForfeitBy c msg) k1
      simp only [hov, Bool.not_false, ne_eq, reduceCtorEq, not_false_eq_true, and_self, if_true, k3]
      have hdg := diag_spec ⟨{ s.r with env := env4 }, g2⟩ c x
      refine ⟨_, rfl, fun hx => ?_, fun _ => ⟨by rw [hdg.1]; exact k2, hdg.2.1⟩, fun hx => absurd hx.2 (by simp)⟩
      simp [hend] at hx
    | error =>
      obtain ⟨g2, k1, k2⟩ := (C26_accepts hp' hov c.opponent msg).2.2
      obtain ⟨env4, k3⟩ := record_quiet hq ⟨{ s.r with env := env3 }, g'⟩ (fun g => g.recordForfeitBy c.opponent msg) k1
      simp only [hov, Bool.not_false, ne_eq, reduceCtorEq, not_false_eq_true, and_self, if_true, if_false, k3]
      have hdg := diag_spec ⟨{ s.r with env := env4 }, g2⟩ c x
      refine ⟨_, rfl, fun hx => ?_, fun hx => absurd hx.2 (by simp), fun _ => ⟨by rw [hdg.1]; exact k2, hdg.2.1⟩⟩
      simp [hend] at hx

/-- C31: an exception from `get_move` is propagated with nothing changed but the backend's own state. -/
theorem C31_exception (hn : n ≤ 25) (hb : ReachableBoard n b0) (B : Backend σ) {s : Run σ}
    (hp : Played n b0 first limit h e s.game) (ho : s.game.isOver = false) (x : GExc)
    (ha : (B.getMove (toPlay first h.length) s.r.env).1 = .error x) :
    doMove B s = (.error x, ⟨{ s.r with env := (B.getMove (toPlay first h.length) s.r.env).2 }, s.game⟩) := by
  have hi := hp.inv hn hb.inv
  unfold doMove
  rw [hi.next, ho]
  simp only [Bool.false_eq_true, if_false]
  simp only [Run.call, ha, andThen]

/-! ### The order of the calls -/

theorem andThen_state {k : Nat} {α β : Type} {x : Except GExc α × Run σ} {f : α → Run σ → Except GExc β × Run σ} (hx : x.2.r.state = k)
    (hf : ∀ a t, t.r.state = k → (f a t).2.r.state = k) : (andThen x f).2.r.state = k := by
  obtain ⟨x | a, t⟩ := x
  · exact hx
  · exact hf a t hx

theorem record_state (B : Backend σ) (s : Run σ) (f : Game → Except GExc Unit × Game) : (s.record B f).2.r.state = s.r.state := by
  unfold Run.record
  simp only
  split
  · rfl
  · split <;> rfl

theorem diag_state (s : Run σ) (c : Colour) (m : Option Str) : (s.setFinalDiagnostics c m).r.state = s.r.state := by
  unfold Run.setFinalDiagnostics
  cases m <;> rfl

theorem endedByPlayer_state (B : Backend σ) (c : Colour) (s : Run σ) : (endedByPlayer B c s).2.r.state = s.r.state :=
  andThen_state rfl (fun a t h => (diag_state t c a).trans h)

theorem playMove_state (B : Backend σ) (c : Colour) (m : Option Pt) (s : Run σ) : (playMove B c m s).2.r.state = s.r.state := by
  unfold playMove
  refine andThen_state (record_state B s _) (fun _ s1 h1 => ?_)
  refine andThen_state h1 (fun cm s2 h2 => ?_)
  split
  · exact (diag_state _ _ _).trans h2
  · refine andThen_state h2 (fun sm s3 h3 => ?_)
    split
    · exact h3
    · split
      · exact andThen_state ((record_state B s3 _).trans h3) (fun _ s4 h4 => (diag_state _ _ _).trans h4)
      · exact h3

theorem doMove_state (B : Backend σ) (s : Run σ) : (doMove B s).2.r.state = s.r.state := by
  unfold doMove
  split
  · rfl
  · refine andThen_state rfl (fun act s1 h1 => ?_)
    have he : ∀ (c : Colour) (f : Game → Except GExc Unit × Game), (andThen (s1.record B f) fun _ s => endedByPlayer B c s).2.r.state = s.r.state :=
      fun c f => andThen_state ((record_state B s1 f).trans h1) (fun _ s2 h2 => (endedByPlayer_state B c s2).trans h2)
    cases act with
    | forfeit msg => exact he _ _
    | resign => exact he _ _
    | claim => exact he _ _
    | move m => exact (playMove_state B _ m s1).trans h1
    | bad => exact h1

theorem runLoop_state (B : Backend σ) : ∀ (fuel : Nat) (s : Run σ) (x), runLoop B fuel s = some x → x.2.r.state = s.r.state := by
  intro fuel
  induction fuel with
  | zero =>
    intro s x hx
    rw [runLoop] at hx
    split at hx
    · cases hx; rfl
    · cases hx
  | succ fuel ih =>
    intro s x hx
    have hd := doMove_state B s
    rw [runLoop] at hx
    split at hx
    · cases hx; rfl
    · rcases hm : doMove B s with ⟨y | y, t⟩
      · rw [hm] at hx hd; cases hx; exact hd
      · rw [hm] at hx hd; exact (ih t x hx).trans hd

theorem run_state (B : Backend σ) (fmt : Rat → Str) (r : Runner σ) (fuel : Nat) (res : Except GExc Unit) (r' : Runner σ) (g : Game)
    (h : r.run B fmt fuel = some (res, r', some g)) : r'.state = 3 := by
  unfold Runner.run at h
  split at h
  · cases h
  · split at h
    · cases h
    · split at h
      · cases h
      · rename_i x hx
        simp only [Option.some.injEq, Prod.mk.injEq] at h
        obtain ⟨_, rfl, _⟩ := h
        refine andThen_state (runLoop_state B fuel _ x hx) (fun _ t ht => ?_)
        unfold setResult
        split
        · refine andThen_state ht (fun sc t1 h1 => ?_)
          simp only
          split <;> exact h1
        · split <;> exact ht

/-- The number of handicap stones which set_handicap accepts. -/
def HandicapOK (n : Nat) (k : Int) (free : Bool) : Prop :=
  if free then 2 ≤ k ∧ k < (n * n : Nat) else ∃ m, Handicap.maxFixed n = .ok m ∧ 2 ≤ k ∧ k ≤ m

/-- The methods called out of order: GameRunnerStateError, and nothing happens. -/
def Refuses (B : Backend σ) (fmt : Rat → Str) (r : Runner σ) (prepare handicap run : Bool) : Prop :=
  (prepare = true → r.prepare B = (.error .runnerStateError, r)) ∧
  (handicap = true → ∀ k free, r.setHandicap B k free = (.error .runnerStateError, r)) ∧
  (run = true → ∀ fuel, r.run B fmt fuel = some (.error .runnerStateError, r, none))

/-- C31: the order of the calls.  set_handicap and run are refused until prepare has succeeded; prepare can't be called again after
that; set_handicap can't be called again once it has been given an acceptable number of stones (even if the players then refused);
once a game has been started, nothing more can be called.  A call which is refused raises GameRunnerStateError, doesn't call the backend, and
changes nothing. -/
theorem C31_order (B : Backend σ) (fmt : Rat → Str) (r : Runner σ) :
    (∀ env size komi limit, r = .init env size komi limit → Refuses B fmt r false true true ∧
      (∀ x e, r.prepare B = (.error e, x) → Refuses B fmt x false true true)) ∧
    (∀ x, r.prepare B = (.ok (), x) → Refuses B fmt x true false false) ∧
    (∀ k free y x, r.setHandicap B k free = (y, x) → y ≠ .error .runnerStateError → HandicapOK r.boardSize k free → Refuses B fmt x true true false) ∧
    (∀ fuel y x g, r.run B fmt fuel = some (y, x, some g) → Refuses B fmt x true true true) := by
  have key : ∀ x : Runner σ, (x.state ≠ 0 → x.prepare B = (.error .runnerStateError, x)) ∧
      (x.state ≠ 1 → ∀ k free, x.setHandicap B k free = (.error .runnerStateError, x)) ∧
      (x.state ≠ 1 ∧ x.state ≠ 2 → ∀ fuel, x.run B fmt fuel = some (.error .runnerStateError, x, none)) := by
    intro x
    refine ⟨?_, ?_, ?_⟩
    · intro h; unfold Runner.prepare; rw [if_pos h]
    · intro h k free; unfold Runner.setHandicap; rw [if_pos h]
    · intro h fuel; unfold Runner.run; rw [if_pos h]
  refine ⟨?_, ?_, ?_, ?_⟩
  · rintro env size komi limit rfl
    constructor
    · obtain ⟨_, k2, k3⟩ := key (.init env size komi limit)
      exact ⟨(fun h => nomatch h), fun _ => k2 (by simp [Runner.init]), fun _ => k3 (by simp [Runner.init])⟩
    · intro x e hx
      have hs : x.state = 0 := by
        unfold Runner.prepare at hx
        rw [if_neg (by simp [Runner.init])] at hx
        split at hx
        · rename_i hc
          cases hx
          have := congrArg Prod.snd hc
          simp only [Runner.call] at this
          rw [← this]
          rfl
        · cases hx
      obtain ⟨_, k2, k3⟩ := key x
      exact ⟨(fun h => nomatch h), fun _ => k2 (by simp [hs]), fun _ => k3 (by simp [hs])⟩
  · intro x hx
    have hs : x.state = 1 := by
      unfold Runner.prepare at hx
      split at hx
      · cases hx
      · split at hx
        · cases hx
        · cases hx; rfl
    exact ⟨fun _ => (key x).1 (by simp [hs]), (fun h => nomatch h), (fun h => nomatch h)⟩
  · intro k free y x hx hy hk
    have hs : x.state = 2 := by
      unfold Runner.setHandicap at hx
      split at hx
      · cases hx; exact absurd rfl hy
      · split at hx
        · rename_i hf
          rw [hf] at hk
          rw [if_neg] at hx
          · simp only [Runner.call] at hx
            rcases hz : B.getFreeHandicap k r.env with ⟨z | z, env⟩
            · rw [hz] at hx; cases hx; rfl
            · rw [hz] at hx
              simp only at hx
              rcases hz' : B.notifyFreeHandicap z env with ⟨z' | z', env'⟩
              · rw [hz'] at hx; cases hx; rfl
              · rw [hz'] at hx; cases hx; rfl
          · unfold HandicapOK at hk
            unfold Handicap.maxFree
            simp only [if_true, Nat.cast_mul] at hk
            omega
        · rename_i hf
          have hf : free = false := by simpa using hf
          rw [hf] at hk
          unfold HandicapOK at hk
          simp only [Bool.false_eq_true, if_false] at hk
          rcases C15_handicap_points k r.boardSize with ⟨_, _, _, _, l, hl, _⟩ | ⟨_, hn⟩
          · rw [hl] at hx
            simp only [Runner.call] at hx
            rcases hz : B.notifyFixedHandicap .b k l r.env with ⟨z | z, env⟩
            · rw [hz] at hx; cases hx; rfl
            · rw [hz] at hx
              simp only at hx
              rcases hz' : B.notifyFixedHandicap .w k l env with ⟨z' | z', env'⟩
              · rw [hz'] at hx; cases hx; rfl
              · rw [hz'] at hx; cases hx; rfl
          · exact absurd hk hn
    exact ⟨fun _ => (key x).1 (by simp [hs]), fun _ => (key x).2.1 (by simp [hs]), (fun h => nomatch h)⟩
  · intro fuel y x g hx
    have hs := run_state B fmt r fuel y x g hx
    exact ⟨fun _ => (key x).1 (by simp [hs]), fun _ => (key x).2.1 (by simp [hs]), fun _ => (key x).2.2 (by simp [hs])⟩

/-- C31: after prepare, set_handicap raises ValueError if the number of stones isn't acceptable (2 to one less than the number of points,
for free placement), and then does nothing, so it can be called again; otherwise it succeeds unless the backend raises an exception. -/
theorem C31_set_handicap (B : Backend σ) (r : Runner σ) (hr : r.state = 1) (k : Int) (free : Bool) :
    (¬ HandicapOK r.boardSize k free → r.setHandicap B k free = (.error (.py .valueError), r)) ∧
    (HandicapOK r.boardSize k free →
      (free = true →
        (∀ e env, B.getFreeHandicap k r.env = (.error e, env) → r.setHandicap B k free = (.error e, { r with env := env, state := 2 })) ∧
        (∀ l env e env', B.getFreeHandicap k r.env = (.ok l, env) → B.notifyFreeHandicap l env = (.error e, env') →
          r.setHandicap B k free = (.error e, { r with env := env', state := 2 })) ∧
        (∀ l env env', B.getFreeHandicap k r.env = (.ok l, env) → B.notifyFreeHandicap l env = (.ok (), env') →
          r.setHandicap B k free = (.ok (), { r with env := env', state := 2, haProp := some k, handicapStones := some l }))) ∧
      (free = false → ∃ l, Handicap.points k r.boardSize = .ok l ∧
        (∀ e env, B.notifyFixedHandicap .b k l r.env = (.error e, env) →
          r.setHandicap B k free = (.error e, { r with env := env, state := 2 })) ∧
        (∀ env e env', B.notifyFixedHandicap .b k l r.env = (.ok (), env) → B.notifyFixedHandicap .w k l env = (.error e, env') →
          r.setHandicap B k free = (.error e, { r with env := env', state := 2 })) ∧
        (∀ env env', B.notifyFixedHandicap .b k l r.env = (.ok (), env) → B.notifyFixedHandicap .w k l env = (.ok (), env') →
          r.setHandicap B k free = (.ok (), { r with env := env', state := 2, haProp := some k, handicapStones := some l })))) := by
  have hmax : (2 ≤ k ∧ k ≤ Handicap.maxFree r.boardSize) ↔ HandicapOK r.boardSize k true := by
    unfold HandicapOK Handicap.maxFree
    simp only [if_true, Nat.cast_mul]
    omega
  constructor
  · intro hk
    unfold Runner.setHandicap
    rw [if_neg (by simp [hr])]
    cases free with
    | true => rw [if_pos rfl, if_pos (fun h => hk (hmax.1 h))]
    | false =>
      rw [if_neg (by simp)]
      rcases C15_handicap_points k r.boardSize with ⟨m, h1, h2, h3, _⟩ | ⟨h, _⟩
      · exact absurd (show HandicapOK r.boardSize k false from ⟨m, h1, h2, h3⟩) hk
      · rw [h]
  · intro hk
    constructor
    · rintro rfl
      have h0 : ¬ ¬ (2 ≤ k ∧ k ≤ Handicap.maxFree r.boardSize) := not_not.2 (hmax.2 hk)
      refine ⟨?_, ?_, ?_⟩
      · intro e env h
        unfold Runner.setHandicap
        rw [if_neg (by simp [hr]), if_pos rfl, if_neg h0]
        simp only [Runner.call, h]
      · intro l env e env' h h'
        unfold Runner.setHandicap
        rw [if_neg (by simp [hr]), if_pos rfl, if_neg h0]
        simp only [Runner.call, h, h']
      · intro l env env' h h'
        unfold Runner.setHandicap
        rw [if_neg (by simp [hr]), if_pos rfl, if_neg h0]
        simp only [Runner.call, h, h', Runner.finishHandicap]
    · rintro rfl
      rcases C15_handicap_points k r.boardSize with ⟨_, _, _, _, l, hl, _⟩ | ⟨_, hn⟩
      · refine ⟨l, hl, ?_, ?_, ?_⟩
        · intro e env h
          unfold Runner.setHandicap
          rw [if_neg (by simp [hr]), if_neg (by simp), hl]
          simp only [Runner.call, h]
        · intro env e env' h h'
          unfold Runner.setHandicap
          rw [if_neg (by simp [hr]), if_neg (by simp), hl]
          simp only [Runner.call, h, h']
        · intro env env' h h'
          unfold Runner.setHandicap
          rw [if_neg (by simp [hr]), if_neg (by simp), hl]
          simp only [Runner.call, h, h', Runner.finishHandicap]
      · exact absurd hk hn

/-- Two players who play a move each on a 3x3 board and then pass. -/
def exampleBackend : Backend Nat where
  startNewGame _ _ s := (.ok (), s)
  endGame s := (.ok (), s)
  getFreeHandicap _ s := (.ok [], s)
  notifyFreeHandicap _ s := (.ok (), s)
  notifyFixedHandicap _ _ _ s := (.ok (), s)
  getMove _ s := (.ok (.move (if s = 0 then some (1, 1) else if s = 1 then some (0, 1) else none)), s + 1)
  notifyMove _ _ s := (.ok (.accept, none), s)
  scoreGame b s := (GameScore.fromPosition b 0 .no 0, s)
  getLastMoveComment _ s := (.ok none, s)
  afterMove _ _ _ s := (.ok (), s)

theorem C31_witness : Quiet exampleBackend ∧
    (((Runner.init 0 3 0 (some 20)).prepare exampleBackend).2.run exampleBackend (fun _ => []) 20).map
      (fun x => (movesOf x.2.1, x.2.2.map Game.passedOut)) =
      some ([(.b, some (1, 1)), (.w, some (0, 1)), (.b, none), (.w, none)], some true) :=
  ⟨⟨fun _ => rfl, fun _ _ => ⟨_, rfl⟩, fun _ _ _ _ => rfl⟩, by decide +kernel⟩

end Gomill
