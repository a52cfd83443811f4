import Verif.Lemmas.GameRule
import Verif.Spec.GameTrack
/-
A rule for reasoning about what the players know during Game_runner.run: an invariant of the backend's state, in terms of the
moves the players have been told of, and how it relates to the game's record when the run ends (in any way).
-/
namespace Gomill
open Py Go

variable {σ : Type} {n : Nat} {b0 : Board} {first : Colour} {limit : Option Int}

/-- After asking a player for a move. -/
def AskPost (J : Phase → σ → Prop) (A : Act → Prop) (h : List Mv) (c : Colour) : Except GExc Act × σ → Prop
  | (.error _, env) => J (.told h) env ∨ J (.asked h c none) env
  | (.ok (.move m), env) => J (.asked h c (some m)) env ∧ A (.move m)
  | (.ok act, env) => J (.asked h c none) env ∧ A act

/-- After telling the opponent of a move. -/
def TellPost (J : Phase → σ → Prop) (S : Status × Option Str → Prop) (h : List Mv) (c : Colour) (m : Option Pt) :
    Except GExc (Status × Option Str) × σ → Prop
  | (.error _, env) => J (.told (h ++ [(c, m)])) env ∨ J (.asked h c (some m)) env
  | (.ok sm, env) => S sm ∧ (sm.1 = .accept → J (.told (h ++ [(c, m)])) env) ∧
      (J (.told (h ++ [(c, m)])) env ∨ J (.asked h c (some m)) env)

/-- The backend keeps track: the invariant `J` (the flag says whether the game is over).  `A` holds of the answers the players
give, `S` of the opponents' reactions. -/
structure Tracks (B : Backend σ) (n : Nat) (b0 : Board) (first : Colour) (limit : Option Int) (J : Bool → Phase → σ → Prop)
    (A : List Mv → Colour → Act → Prop) (S : Bool → Status × Option Str → Prop) : Prop where
  onBoard : ∀ h c p, A h c (.move (some p)) → OnBoard n p
  endGame : ∀ ph env, J false ph env → J true ph (B.endGame env).2
  comment : ∀ o ph c env, J o ph env → J o ph (B.getLastMoveComment c env).2
  afterMove : ∀ o ph c m b env, J o ph env → J o ph (B.afterMove c m b env).2
  scoreGame : ∀ ph b env, J true ph env → J true ph (B.scoreGame b env).2
  getMove : ∀ h c env, J false (.told h) env → c = toPlay first h.length →
    (∃ g, Played n b0 first limit h none g ∧ g.isOver = false) → AskPost (J false) (A h c) h c (B.getMove c env)
  notifyMove : ∀ o h c m env, J o (.asked h c (some m)) env → c = toPlay first h.length →
    (∃ g, Played n b0 first limit (h ++ [(c, m)]) none g) → TellPost (J o) (S o) h c m (B.notifyMove c.opponent m env)

variable {B : Backend σ} {J : Bool → Phase → σ → Prop} {A : List Mv → Colour → Act → Prop} {S : Bool → Status × Option Str → Prop}

/-- How things are at some point of a run. -/
def Stands (raised : Prop) (n : Nat) (b0 : Board) (first : Colour) (limit : Option Int) (J : Bool → Phase → σ → Prop)
    (A : List Mv → Colour → Act → Prop) (S : Bool → Status × Option Str → Prop) (s : Run σ) : Prop :=
  ∃ h e ph, Played n b0 first limit h e s.game ∧ J s.game.isOver ph s.r.env ∧ Standing raised first A S h e (movesOf s.r) ph

theorem Stands.mono {raised raised' : Prop} (hr : raised → raised') {s : Run σ} (h : Stands raised n b0 first limit J A S s) :
    Stands raised' n b0 first limit J A S s := by
  obtain ⟨h, e, ph, h1, h2, h3⟩ := h
  exact ⟨h, e, ph, h1, h2, h3.mono hr (fun _ _ _ h => h) (fun _ _ h => h)⟩

/-- The turn is over, and the game goes on. -/
def GoesOn (n : Nat) (b0 : Board) (first : Colour) (limit : Option Int) (J : Bool → Phase → σ → Prop) (s : Run σ) : Prop :=
  s.game.isOver = false → ∃ h, Played n b0 first limit h none s.game ∧ J false (.told h) s.r.env ∧ movesOf s.r = h

theorem record_track (T : Tracks B n b0 first limit J A S) (s : Run σ) (f : Game → Except GExc Unit × Game) {g : Game}
    (hf : f s.game = (.ok (), g)) (ho : s.game.isOver = false) {ph : Phase} (hj : J false ph s.r.env)
    (hover : g.isOver = false → g.overCalls = s.game.overCalls) (hover' : g.isOver = true → g.overCalls ≠ s.game.overCalls) :
    (s.record B f).2.game = g ∧ J g.isOver ph (s.record B f).2.r.env ∧ movesOf (s.record B f).2.r = movesOf s.r := by
  unfold Run.record
  simp only [hf]
  cases hg : g.isOver with
  | false =>
    rw [if_pos (hover hg)]
    exact ⟨rfl, hj, rfl⟩
  | true =>
    rw [if_neg (hover' hg)]
    exact ⟨rfl, T.endGame ph _ hj, rfl⟩

theorem setDiag_track (s : Run σ) (c : Colour) (m : Option Str) : (s.setFinalDiagnostics c m).game = s.game ∧
    (s.setFinalDiagnostics c m).r.env = s.r.env ∧ movesOf (s.setFinalDiagnostics c m).r = movesOf s.r := by
  unfold Run.setFinalDiagnostics
  cases m <;> exact ⟨rfl, rfl, rfl⟩

theorem endedByPlayer_track (T : Tracks B n b0 first limit J A S) (c : Colour) (s : Run σ) {ph : Phase}
    (hj : J s.game.isOver ph s.r.env) :
    (endedByPlayer B c s).2.game = s.game ∧ J s.game.isOver ph (endedByPlayer B c s).2.r.env ∧
      movesOf (endedByPlayer B c s).2.r = movesOf s.r := by
  have h := T.comment _ ph c _ hj
  unfold endedByPlayer andThen Run.call
  cases hx : B.getLastMoveComment c s.r.env with
  | mk x env =>
    rw [hx] at h
    cases x with
    | error e => exact ⟨rfl, h, rfl⟩
    | ok comment =>
      simp only
      obtain ⟨d1, d2, d3⟩ := setDiag_track (σ := σ) { s with r := { s.r with env := env } } c comment
      refine ⟨d1, ?_, d3⟩
      rw [d2]; exact h

/-- What holds after a turn. -/
def TurnTrack (n : Nat) (b0 : Board) (first : Colour) (limit : Option Int) (J : Bool → Phase → σ → Prop)
    (A : List Mv → Colour → Act → Prop) (S : Bool → Status × Option Str → Prop) (x : Except GExc Unit × Run σ) : Prop :=
  Stands (x.1 ≠ .ok ()) n b0 first limit J A S x.2 ∧ (x.1 = .ok () → GoesOn n b0 first limit J x.2)

theorem playMove_track (T : Tracks B n b0 first limit J A S) (hn : n ≤ 25) (hb : ReachableBoard n b0) {h : List Mv} {s : Run σ}
    (hp : Played n b0 first limit h none s.game) (ho : s.game.isOver = false) (m : Option Pt)
    (hj : J false (.asked h (toPlay first h.length) (some m)) s.r.env) (ha : A h (toPlay first h.length) (.move m))
    (hm : movesOf s.r = h) : TurnTrack n b0 first limit J A S (playMove B (toPlay first h.length) m s) := by
  have hon : ∀ p, m = some p → OnBoard n p := fun p hpm => T.onBoard _ _ _ (hpm ▸ ha)
  obtain ⟨g', hg⟩ := recordMove_ok hn hb hp ho m hon
  obtain ⟨o1, o2⟩ := over_calls_move _ _ _ _ hg ho
  obtain ⟨r1, r2, r3⟩ := record_track T s (fun g => g.recordMove (toPlay first h.length) m) hg ho hj o1 (fun h => by rw [o2 h]; omega)
  unfold playMove
  -- the game after the move
  have hplayed : g'.seenForfeit = false → Played n b0 first limit (h ++ [(toPlay first h.length, m)]) none g' :=
    fun hs => Played.move _ m hp hon hg hs
  have hill : g'.seenForfeit = true → ∃ p, m = some p ∧ Played n b0 first limit h (some (.illegal (toPlay first h.length) p)) g' := by
    intro hs
    cases m with
    | none =>
      obtain ⟨g1, h1, h2, _⟩ := C28_pass hn hb hp ho
      rw [hg] at h1; cases h1; rw [hs] at h2; cases h2
    | some p => exact ⟨p, rfl, Played.illegal _ p hp (hon p rfl) hg hs⟩
  -- stopping before the opponent is told
  have early : ∀ s' : Run σ, s'.game = g' → J g'.isOver (.asked h (toPlay first h.length) (some m)) s'.r.env → movesOf s'.r = h →
      ∀ raised : Prop, raised → Stands raised n b0 first limit J A S s' := by
    intro s' e1 e2 e3 raised hraised
    cases hs : g'.seenForfeit with
    | true =>
      obtain ⟨p, rfl, h2⟩ := hill hs
      exact ⟨h, _, _, by rw [e1]; exact h2, by rw [e1]; exact e2, by rw [e3]; exact .illegal h p ha⟩
    | false =>
      exact ⟨_, none, _, by rw [e1]; exact hplayed hs, by rw [e1]; exact e2, by rw [e3]; exact .untold h m h (.inl ⟨hraised, rfl⟩)⟩
  generalize hc : toPlay first h.length = c at *
  generalize hR : s.record B (fun g => g.recordMove c m) = R at *
  obtain ⟨x, s1⟩ := R
  simp only at r1 r2 r3
  unfold andThen
  cases x with
  | error e => exact ⟨early s1 r1 r2 (r3.trans hm) _ (fun hh => nomatch hh), fun hh => nomatch hh⟩
  | ok _ =>
    simp only
    have hcom := T.comment _ _ c _ r2
    unfold Run.call
    generalize hC : B.getLastMoveComment c s1.r.env = C at *
    obtain ⟨x, env2⟩ := C
    simp only at hcom ⊢
    cases x with
    | error e => exact ⟨early ({ s1 with r := { s1.r with env := env2 } } : Run σ) r1 hcom (r3.trans hm) _ (by simp), fun hh => nomatch hh⟩
    | ok comment =>
      simp only [r1]
      cases hs : g'.seenForfeit with
      | true =>
        simp only [if_true]
        obtain ⟨d1, d2, d3⟩ := setDiag_track (σ := σ) { game := g', r := { s1.r with env := env2 } } c comment
        obtain ⟨p, rfl, h2⟩ := hill hs
        refine ⟨⟨h, _, _, by rw [d1]; exact h2, by rw [d1, d2]; exact hcom, ?_⟩, ?_⟩
        · rw [d3]
          show Standing _ first A S h _ (movesOf s1.r) _
          rw [r3, hm, ← hc]
          exact .illegal h p (hc ▸ ha)
        · intro _ hov
          rw [d1] at hov
          rw [over_of_ending hn hb h2] at hov
          cases hov
      | false =>
        simp only [Bool.false_eq_true, if_false]
        have hpl := hplayed hs
        have htell := T.notifyMove g'.isOver h c m env2 hcom hc.symm ⟨g', hpl⟩
        generalize hN : B.notifyMove c.opponent m env2 = N at *
        obtain ⟨x, env3⟩ := N
        cases x with
        | error e =>
          refine ⟨?_, fun hh => nomatch hh⟩
          rcases htell with ht | ht
          · refine ⟨_, none, _, hpl, ht, ?_⟩
            show Standing _ first A S _ none (movesOf s1.r) _
            rw [r3, hm, ← hc]; exact .unreported h m (fun hh => nomatch hh)
          · refine ⟨_, none, _, hpl, ht, ?_⟩
            show Standing _ first A S _ none (movesOf s1.r) _
            rw [r3, hm, ← hc]; exact .untold h m h (.inl ⟨(fun hh => nomatch hh), rfl⟩)
        | ok sm =>
          obtain ⟨t1, t2, t3⟩ := htell
          simp only
          by_cases hbad : sm.1 = Status.bad
          · rw [if_pos hbad]
            refine ⟨?_, fun hh => nomatch hh⟩
            rcases t3 with ht | ht
            · refine ⟨_, none, _, hpl, ht, ?_⟩
              show Standing _ first A S _ none (movesOf s1.r) _
              rw [r3, hm, ← hc]; exact .unreported h m (fun hh => nomatch hh)
            · refine ⟨_, none, _, hpl, ht, ?_⟩
              show Standing _ first A S _ none (movesOf s1.r) _
              rw [r3, hm, ← hc]; exact .untold h m h (.inl ⟨(fun hh => nomatch hh), rfl⟩)
          · rw [if_neg hbad]
            by_cases href : (!g'.isOver) = true ∧ sm.1 ≠ Status.accept
            · rw [if_pos href]
              obtain ⟨href1, href2⟩ := href
              have hov : g'.isOver = false := by simpa using href1
              rw [hov] at t1 t2 t3
              obtain ⟨g4, a1, a2, a3⟩ := over_calls_forfeit g' (if sm.1 = Status.reject then c else c.opponent) sm.2 hov
              have hpl4 := Played.forfeit _ _ hpl a1
              have key : ∀ ph, J false ph env3 → (ph = .told (h ++ [(c, m)]) ∨ ph = .asked h c (some m)) →
                  TurnTrack n b0 first limit J A S
                    (andThen (({ game := g', r := { s1.r with env := env3 } } : Run σ).record B
                        (fun g => g.recordForfeitBy (if sm.1 = Status.reject then c else c.opponent) sm.2))
                      fun _ s => (.ok (), s.setFinalDiagnostics c comment)) := by
                intro ph hph hph'
                obtain ⟨q1, q2, q3⟩ := record_track T ({ game := g', r := { s1.r with env := env3 } } : Run σ)
                  (fun g => g.recordForfeitBy (if sm.1 = Status.reject then c else c.opponent) sm.2) a1 hov hph
                  (by rw [a2]; exact fun h => nomatch h) (fun _ => by rw [a3]; simp)
                have hst : ∀ raised, Standing raised first A S (h ++ [(c, m)])
                    (some (.forfeited (if sm.1 = .reject then c else c.opponent) sm.2)) h ph := by
                  intro raised
                  have := Standing.refused (raised := raised) (first := first) (A := A) (S := S) h m sm ph t1 href2 (by rw [hc]; exact hph')
                  rw [hc] at this; exact this
                have q3' := q3.trans (show movesOf s1.r = h from r3.trans hm)
                generalize ({ game := g', r := { s1.r with env := env3 } } : Run σ).record B
                  (fun g => g.recordForfeitBy (if sm.1 = Status.reject then c else c.opponent) sm.2) = Z at *
                obtain ⟨x, s4⟩ := Z
                unfold andThen
                simp only at q1 q2 q3'
                cases x with
                | error e =>
                  exact ⟨⟨_, _, ph, by rw [q1]; exact hpl4, by rw [q1]; exact q2, by rw [q3']; exact hst _⟩, fun hh => nomatch hh⟩
                | ok _ =>
                  simp only
                  obtain ⟨d1, d2, d3⟩ := setDiag_track s4 c comment
                  refine ⟨⟨_, _, ph, by rw [d1, q1]; exact hpl4, by rw [d1, d2, q1]; exact q2, by rw [d3, q3']; exact hst _⟩, ?_⟩
                  intro _ hno
                  rw [d1, q1, a2] at hno
                  cases hno
              rcases t3 with ht | ht
              · exact key _ ht (.inl rfl)
              · exact key _ ht (.inr rfl)
            · rw [if_neg href]
              have hmv : ∀ env, movesOf ({ s1.r with env := env, moves := s1.r.moves ++ [(c, m, comment)] } : Runner σ) = h ++ [(c, m)] := by
                intro env
                rw [← hm, ← r3]; simp [movesOf]
              have haft : ∀ ph, J g'.isOver ph env3 →
                  J g'.isOver ph (B.afterMove c m g'.board env3).2 := fun ph hph => T.afterMove _ _ _ _ _ _ hph
              generalize B.afterMove c m g'.board env3 = Z at *
              obtain ⟨x, env4⟩ := Z
              simp only at haft ⊢
              by_cases hacc : sm.1 = Status.accept
              · have ht := haft _ (t2 hacc)
                refine ⟨⟨_, none, _, hpl, ht, ?_⟩, ?_⟩
                · show Standing _ first A S _ none (movesOf _) _
                  rw [hmv]; exact .told _
                · intro _ hov
                  refine ⟨_, hpl, ?_, hmv _⟩
                  have hov : g'.isOver = false := hov
                  rw [hov] at ht; exact ht
              · have hov : g'.isOver = true := by
                  cases hgo : g'.isOver with
                  | true => rfl
                  | false => exact absurd ⟨by rw [hgo]; rfl, hacc⟩ href
                rw [hov] at t1
                refine ⟨?_, fun _ hno => by have hno : g'.isOver = false := hno; rw [hov] at hno; cases hno⟩
                rcases t3 with ht | ht
                · refine ⟨_, none, _, hpl, haft _ ht, ?_⟩
                  show Standing _ first A S _ none (movesOf _) _
                  rw [hmv]; exact .told _
                · refine ⟨_, none, _, hpl, haft _ ht, ?_⟩
                  show Standing _ first A S _ none (movesOf _) _
                  rw [hmv, ← hc]; exact .untold h m _ (.inr ⟨rfl, sm, t1, hacc⟩)

theorem doMove_track (T : Tracks B n b0 first limit J A S) (hn : n ≤ 25) (hb : ReachableBoard n b0) {h : List Mv} {s : Run σ}
    (hp : Played n b0 first limit h none s.game) (ho : s.game.isOver = false) (hj : J false (.told h) s.r.env)
    (hm : movesOf s.r = h) : TurnTrack n b0 first limit J A S (doMove B s) := by
  have hnext := (hp.inv hn hb.inv).next
  rw [ho] at hnext
  simp only [Bool.false_eq_true, if_false] at hnext
  unfold doMove
  rw [hnext]
  simp only
  have hask := T.getMove h _ _ hj rfl ⟨_, hp, ho⟩
  generalize hG : B.getMove (toPlay first h.length) s.r.env = G at *
  obtain ⟨x, env1⟩ := G
  have hcall : s.call (B.getMove (toPlay first h.length)) = (x, { s with r := { s.r with env := env1 } }) := by
    unfold Run.call; rw [hG]
  rw [hcall]
  cases x with
  | error e =>
    refine ⟨?_, fun hh => nomatch hh⟩
    rcases hask with ht | ht
    · exact ⟨h, none, _, hp, by show J s.game.isOver _ _; rw [ho]; exact ht, by show Standing _ first A S _ _ (movesOf s.r) _; rw [hm]; exact .told h⟩
    · exact ⟨h, none, _, hp, by show J s.game.isOver _ _; rw [ho]; exact ht, by show Standing _ first A S _ _ (movesOf s.r) _; rw [hm]; exact .asked h none (fun hh => nomatch hh)⟩
  | ok act =>
    rw [andThen]
    have ended : ∀ (x : Ending) (f : Game → Except GExc Unit × Game),
        (∃ g', f s.game = (.ok (), g') ∧ g'.isOver = true ∧ g'.overCalls = s.game.overCalls + 1) →
        (∀ g', f s.game = (.ok (), g') → Played n b0 first limit h (some x) g') →
        (∀ raised, Standing raised first A S h (some x) h (.asked h (toPlay first h.length) none)) →
        J false (.asked h (toPlay first h.length) none) env1 →
        TurnTrack n b0 first limit J A S
          (andThen (({ game := s.game, r := { s.r with env := env1 } } : Run σ).record B f)
            fun _ s => endedByPlayer B (toPlay first h.length) s) := by
      rintro x f ⟨g', a1, a2, a3⟩ hpl hst hj1
      have hpl := hpl g' a1
      obtain ⟨q1, q2, q3⟩ := record_track T ({ game := s.game, r := { s.r with env := env1 } } : Run σ) f a1 ho hj1
        (by rw [a2]; exact fun h => nomatch h) (fun _ => by rw [a3]; simp)
      have q3' := q3.trans (show movesOf s.r = h from hm)
      generalize ({ game := s.game, r := { s.r with env := env1 } } : Run σ).record B f = Z at *
      obtain ⟨y, s4⟩ := Z
      unfold andThen
      simp only at q1 q2 q3'
      cases y with
      | error e =>
        exact ⟨⟨_, _, _, by rw [q1]; exact hpl, by rw [q1]; exact q2, by rw [q3']; exact hst _⟩, fun hh => nomatch hh⟩
      | ok _ =>
        simp only
        obtain ⟨d1, d2, d3⟩ := endedByPlayer_track T (toPlay first h.length) s4 (by rw [q1]; exact q2)
        refine ⟨⟨_, _, _, by rw [d1, q1]; exact hpl, by rw [d1]; exact d2, by rw [d3, q3']; exact hst _⟩, ?_⟩
        intro _ hno
        rw [d1, q1, a2] at hno
        cases hno
    cases act with
    | forfeit msg =>
      exact ended _ (fun g => g.recordForfeitBy (toPlay first h.length) (some msg)) (over_calls_forfeit _ _ _ ho)
        (fun g' hg' => .forfeit _ _ hp hg') (fun _ => .forfeit h msg hask.2) hask.1
    | resign =>
      exact ended _ (fun g => g.recordResignationBy (toPlay first h.length)) (over_calls_resign _ _ ho)
        (fun g' hg' => .resign _ hp hg') (fun _ => .resign h hask.2) hask.1
    | claim =>
      exact ended _ (fun g => g.recordClaimBy (toPlay first h.length)) (over_calls_claim _ _ ho)
        (fun g' hg' => .claim _ hp hg') (fun _ => .claim h hask.2) hask.1
    | move m =>
      exact playMove_track T hn hb (s := { game := s.game, r := { s.r with env := env1 } }) hp ho m hask.1 hask.2 hm
    | bad =>
      refine ⟨⟨h, none, .asked h (toPlay first h.length) none, hp, ?_, ?_⟩, fun hh => nomatch hh⟩
      · show J s.game.isOver _ _; rw [ho]; exact hask.1
      · show Standing _ first A S _ _ (movesOf s.r) _
        rw [hm]; exact .asked h none (fun hh => nomatch hh)

theorem runLoop_track (T : Tracks B n b0 first limit J A S) (hn : n ≤ 25) (hb : ReachableBoard n b0) : ∀ (fuel : Nat) (s : Run σ),
    Stands False n b0 first limit J A S s → GoesOn n b0 first limit J s → ∀ x, runLoop B fuel s = some x →
    Stands (x.1 ≠ .ok ()) n b0 first limit J A S x.2 ∧ (x.1 = .ok () → x.2.game.isOver = true) := by
  intro fuel
  induction fuel with
  | zero =>
    intro s h1 h2 x hx
    rw [runLoop] at hx
    split at hx
    · rename_i ho
      cases hx
      exact ⟨h1.mono (fun h => h.elim), fun _ => ho⟩
    · cases hx
  | succ fuel ih =>
    intro s h1 h2 x hx
    rw [runLoop] at hx
    split at hx
    · rename_i ho
      cases hx
      exact ⟨h1.mono (fun h => h.elim), fun _ => ho⟩
    · rename_i ho
      have ho' : s.game.isOver = false := by simpa using ho
      obtain ⟨h, hp, hj, hm⟩ := h2 ho'
      have ht := doMove_track T hn hb hp ho' hj hm
      rcases hd : doMove B s with ⟨y | y, s'⟩
      · rw [hd] at hx ht
        cases hx
        exact ⟨ht.1, fun hh => nomatch hh⟩
      · rw [hd] at hx ht
        exact ih s' (ht.1.mono (fun h => h rfl)) (ht.2 rfl) x hx

/-- The rule: however the run ends, the players know what they should. -/
theorem run_tracks {fmt : Rat → Str} {r : Runner σ} (hr : r.moves = []) (hn : r.boardSize ≤ 25)
    (hst : r.state = 1 ∨ r.state = 2) {g0 : Game} (hmake : r.makeGame = .ok g0) (hb : ReachableBoard r.boardSize b0)
    (hg0 : g0 = Game.init b0 first r.moveLimit) (T : Tracks B r.boardSize b0 first r.moveLimit J A S)
    (hj : J false (.told []) r.env) (fuel : Nat) (x) (hx : r.run B fmt fuel = some x) :
    ∃ g h e ph, x.2.2 = some g ∧ Played r.boardSize b0 first r.moveLimit h e g ∧ J g.isOver ph x.2.1.env ∧
      Standing (x.1 ≠ .ok ()) first A S h e (movesOf x.2.1) ph ∧ (x.1 = .ok () → g.isOver = true) := by
  unfold Runner.run at hx
  rw [if_neg (by rcases hst with h | h <;> simp [h])] at hx
  rw [hmake] at hx
  simp only at hx
  have hp : Played r.boardSize b0 first r.moveLimit [] none g0 := by rw [hg0]; exact Played.start
  have hm0 : movesOf ({ r with state := 3 } : Runner σ) = [] := by unfold movesOf; rw [hr]; rfl
  have ho0 : g0.isOver = false := by rw [hg0]; rfl
  cases hl : runLoop B fuel ⟨{ r with state := 3 }, g0⟩ with
  | none => rw [hl] at hx; cases hx
  | some y =>
    rw [hl] at hx
    simp only [Option.some.injEq] at hx
    subst hx
    obtain ⟨⟨h, e, ph, k1, k2, k3⟩, k4⟩ := runLoop_track T hn hb fuel ⟨{ r with state := 3 }, g0⟩
      ⟨[], none, .told [], hp, by show J g0.isOver _ _; rw [ho0]; exact hj, by rw [hm0]; exact .told []⟩
      (fun _ => ⟨[], hp, hj, hm0⟩) y hl
    obtain ⟨ya, s⟩ := y
    cases ya with
    | error z => exact ⟨s.game, h, e, ph, rfl, k1, k2, k3, fun hh => nomatch hh⟩
    | ok u =>
      have hov := k4 rfl
      simp only at hov k1 k2 k3
      have k3 : ∀ raised, Standing raised first A S h e (movesOf s.r) ph :=
        fun raised => k3.mono (fun h => (h rfl).elim) (fun _ _ _ h => h) (fun _ _ h => h)
      unfold andThen setResult
      simp only
      split
      · have hs := T.scoreGame ph s.game.board _ (hov ▸ k2)
        simp only [Run.call]
        unfold andThen
        revert hs
        cases hsg : B.scoreGame s.game.board s.r.env with
        | mk sc env' =>
          intro hs
          simp only at hs
          cases sc with
          | error z => exact ⟨s.game, h, e, ph, rfl, k1, by rw [hov]; exact hs, k3 _, fun _ => hov⟩
          | ok sc =>
            simp only
            split
            · exact ⟨s.game, h, e, ph, rfl, k1, by rw [hov]; exact hs, k3 _, fun _ => hov⟩
            · exact ⟨s.game, h, e, ph, rfl, k1, by rw [hov]; exact hs, k3 _, fun _ => hov⟩
      · split
        · exact ⟨s.game, h, e, ph, rfl, k1, k2, k3 _, fun _ => hov⟩
        · exact ⟨s.game, h, e, ph, rfl, k1, k2, k3 _, fun _ => hov⟩

end Gomill
