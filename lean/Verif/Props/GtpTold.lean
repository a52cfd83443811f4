import Verif.Props.GtpState
import Verif.Spec.GtpTold
/-
C62: what the move generator of a Gtp_state is told, and what becomes of its answer (gomill/gtp_states.py).
-/
namespace Gomill.Gtp
open Py Go Spec

/-- The state after a sequence of commands, whatever their outcomes. -/
def after (env : Env) (s : GS) (cmds : List (Cmd × List Str)) : GS :=
  cmds.foldl (fun s x => (s.step env x.1 x.2).1) s

/-! ### arguments -/

theorem lower_distinct : ("w".toList : Str) ≠ "b".toList ∧ ("w".toList : Str) ≠ "black".toList ∧ ("white".toList : Str) ≠ "b".toList ∧
    ("white".toList : Str) ≠ "black".toList := by decide

/-- C62: the colour arguments accepted. -/
theorem C62_colour (a : Str) (c : Colour) : interpretColour a = some c ↔ IsColour a c := by
  obtain ⟨d1, d2, d3, d4⟩ := lower_distinct
  unfold interpretColour IsColour
  by_cases hw : lower a = "w".toList ∨ lower a = "white".toList
  · rw [if_pos hw]
    have hb : ¬ (lower a = "b".toList ∨ lower a = "black".toList) := by
      rintro (h | h) <;> rcases hw with h' | h' <;> rw [h] at h'
      · exact d1 h'.symm
      · exact d3 h'.symm
      · exact d2 h'.symm
      · exact d4 h'.symm
    cases c
    · exact ⟨fun h => (nomatch h), fun h => by rcases h with ⟨_, h⟩ | ⟨h, _⟩; exact absurd h hb; cases h⟩
    · exact ⟨fun _ => .inr ⟨rfl, hw⟩, fun _ => rfl⟩
  · rw [if_neg hw]
    by_cases hb : lower a = "b".toList ∨ lower a = "black".toList
    · rw [if_pos hb]
      cases c
      · exact ⟨fun _ => .inl ⟨rfl, hb⟩, fun _ => rfl⟩
      · exact ⟨fun h => (nomatch h), fun h => by rcases h with ⟨h, _⟩ | ⟨_, h⟩; cases h; exact absurd h hw⟩
    · rw [if_neg hb]
      exact ⟨fun h => (nomatch h), fun h => by rcases h with ⟨_, h⟩ | ⟨_, h⟩; exact absurd h hb; exact absurd h hw⟩

/-- C62: the integer arguments accepted, and their values. -/
theorem C62_int (a : Str) (k : Int) : interpretInt a = some k ↔ IsGtpInt a k := by
  unfold interpretInt IsGtpInt
  cases parseInt a with
  | error e => exact ⟨fun h => (nomatch h), fun ⟨_, h, _⟩ => (nomatch h)⟩
  | ok j =>
    simp only [Except.ok.injEq, exists_eq_left']
    have hmax : ((gtpIntMax : Nat) : Int) = 2147483647 := rfl
    rw [hmax]
    split
    · simp only [Option.some.injEq]; omega
    · split
      · simp only [Option.some.injEq]; omega
      · simp only [Option.some.injEq]; omega

/-! ### what each command leaves alone -/

theorem reset_frame (s : GS) : s.reset.1.timeStatus = s.timeStatus ∧ s.reset.1.timeSettings = s.timeSettings ∧
    s.reset.1.komi = s.komi := by
  unfold GS.reset
  split <;> exact ⟨rfl, rfl, rfl⟩

theorem resetLoop_frame (l : List HistMove) : ∀ (s : GS) ko pl, (resetLoop s ko pl l).1.timeStatus = s.timeStatus ∧
    (resetLoop s ko pl l).1.timeSettings = s.timeSettings ∧ (resetLoop s ko pl l).1.komi = s.komi := by
  induction l with
  | nil => intro s ko pl; exact ⟨rfl, rfl, rfl⟩
  | cons m l ih =>
    intro s ko pl
    unfold resetLoop
    split
    · exact ih _ _ _
    · split
      · exact ⟨rfl, rfl, rfl⟩
      · exact ih _ _ _

theorem resetToMoves_frame (s : GS) (l : List HistMove) : (s.resetToMoves l).1.timeStatus = s.timeStatus ∧
    (s.resetToMoves l).1.timeSettings = s.timeSettings ∧ (s.resetToMoves l).1.komi = s.komi := by
  have h := resetLoop_frame l { s with board := s.base.copy } none none
  unfold GS.resetToMoves
  split <;> (rename_i hx; rw [hx] at h; exact h)

/-- The clocks, the time settings and the komi are the same in both states. -/
def SameSettings (s s' : GS) : Prop := s'.timeStatus = s.timeStatus ∧ s'.timeSettings = s.timeSettings ∧ s'.komi = s.komi

theorem handleGenmove_frame (env : Env) (s : GS) (args : List Str) (fr ac : Bool) :
    SameSettings s (s.handleGenmove env args fr ac).1 := by
  unfold GS.handleGenmove err exc SameSettings
  repeat' split
  all_goals exact ⟨rfl, rfl, rfl⟩

theorem loadGame_frame (env : Env) (s : GS) (mn : Option Int) (g : Sgf.SgfGame) :
    (s.loadGame env mn g).1.timeStatus = s.timeStatus ∧ (s.loadGame env mn g).1.timeSettings = s.timeSettings ∧
    ((s.loadGame env mn g).1.komi = s.komi ∨ ¬ Failed (s.loadGame env mn g).2) := by
  unfold GS.loadGame err exc
  split
  · exact ⟨rfl, rfl, .inl rfl⟩
  · dsimp only
    split
    · exact ⟨rfl, rfl, .inl rfl⟩
    · exact ⟨rfl, rfl, .inl rfl⟩
    · split
      · exact ⟨rfl, rfl, .inl rfl⟩
      · split
        · exact ⟨rfl, rfl, .inl rfl⟩
        · exact ⟨rfl, rfl, .inl rfl⟩
        · rename_i board plays _
          have h := resetToMoves_frame (GS.setHistoryBase { s with boardSize := g.size } board)
            (beforeMove mn (plays.map (fun p => { colour := p.1, move := p.2 })))
          split
          · rename_i hx; rw [hx] at h
            exact ⟨h.1, h.2.1, .inr failed_value⟩
          · rename_i s1 hx; rw [hx] at h
            have h2 := resetToMoves_frame (GS.setHistoryBase s1 s.base) s.history
            split
            all_goals
              rename_i hy; rw [hy] at h2
              exact ⟨h2.1.trans h.1, h2.2.1.trans h.2.1, .inl (h2.2.2.trans h.2.2)⟩
          · rename_i hx; rw [hx] at h
            exact ⟨h.1, h.2.1, .inl h.2.2⟩

theorem loadsgf_frame (env : Env) (s : GS) (args : List Str) :
    (s.loadsgf env args).1.timeStatus = s.timeStatus ∧ (s.loadsgf env args).1.timeSettings = s.timeSettings ∧
    ((s.loadsgf env args).1.komi = s.komi ∨ ¬ Failed (s.loadsgf env args).2) := by
  unfold GS.loadsgf err exc
  split
  · exact ⟨rfl, rfl, .inl rfl⟩
  · split
    · exact ⟨rfl, rfl, .inl rfl⟩
    · split
      · exact ⟨rfl, rfl, .inl rfl⟩
      · split
        · exact ⟨rfl, rfl, .inl rfl⟩
        · exact ⟨rfl, rfl, .inl rfl⟩
        · exact loadGame_frame _ _ _ _

/-- Commands other than time_left, time_settings, komi and loadsgf change none of the settings. -/
theorem step_frame (env : Env) (s : GS) (c : Cmd) (args : List Str) (h1 : c ≠ .timeLeft) (h2 : c ≠ .timeSettings)
    (h3 : c ≠ .komi) (h4 : c ≠ .loadsgf) : SameSettings s (s.step env c args).1 := by
  cases c <;> simp only [GS.step]
  · unfold GS.boardsize err exc
    split
    · exact ⟨rfl, rfl, rfl⟩
    · split
      · exact ⟨rfl, rfl, rfl⟩
      · rename_i size _
        split
        · exact ⟨rfl, rfl, rfl⟩
        · have h := reset_frame { s with boardSize := size }
          split <;> (rename_i hx; rw [hx] at h; exact h)
  · unfold GS.clearBoard exc
    have h := reset_frame s
    split <;> (rename_i hx; rw [hx] at h; exact h)
  · exact absurd rfl h3
  · unfold GS.fixedHandicap err exc SameSettings GS.setHistoryBase
    dsimp only
    repeat' split
    all_goals exact ⟨rfl, rfl, rfl⟩
  · unfold GS.setFreeHandicap err exc GS.setHistoryBase
    dsimp only
    split
    · exact ⟨rfl, rfl, rfl⟩
    · split
      · exact ⟨rfl, rfl, rfl⟩
      · split
        · have h := reset_frame s
          split <;> (rename_i hx; rw [hx] at h; exact h)
        · exact ⟨rfl, rfl, rfl⟩
  · unfold GS.placeFreeHandicap err exc GS.setHistoryBase
    have h := reset_frame s
    dsimp only
    repeat' split
    all_goals first
      | exact ⟨rfl, rfl, rfl⟩
      | (rename_i hx; rw [hx] at h; exact h)
      | (rename_i hx _; rw [hx] at h; exact h)
  · unfold GS.play err exc SameSettings
    repeat' split
    all_goals exact ⟨rfl, rfl, rfl⟩
  · exact handleGenmove_frame _ _ _ _ _
  · unfold GS.genmoveEx
    split
    · exact ⟨rfl, rfl, rfl⟩
    · exact handleGenmove_frame _ _ _ _ _
  · exact handleGenmove_frame _ _ _ _ _
  · unfold GS.undo err exc
    have h := resetToMoves_frame s s.history.dropLast
    split
    · exact ⟨rfl, rfl, rfl⟩
    · split <;> (rename_i hx; rw [hx] at h; exact h)
  · exact absurd rfl h4
  · exact absurd rfl h1
  · exact absurd rfl h2
  · unfold GS.explainLastMove
    split <;> exact ⟨rfl, rfl, rfl⟩

/-! ### the clocks -/

/-- The clock a time_left sets. -/
def clockOf (time stones : Int) : Option Int × Option Int := (some time, if stones = 0 then none else some stones)

theorem timeLeft_valid {env : Env} {s : GS} {x : Cmd × List Str} {c : Colour} {t k : Int} (h : IsTimeLeft x c t k) :
    s.step env x.1 x.2 = ({ s with timeStatus := fun y => if y = c then clockOf t k else s.timeStatus y }, .value none) := by
  obtain ⟨a, b, d, rest, rfl, h1, h2, h3⟩ := h
  simp only [GS.step, GS.timeLeft, (C62_colour a c).2 h1, (C62_int b t).2 h2, (C62_int d k).2 h3]
  rfl

theorem timeLeft_other {env : Env} {s : GS} {x : Cmd × List Str} {c : Colour} (h : ¬ ∃ t k, IsTimeLeft x c t k) :
    (s.step env x.1 x.2).1.timeStatus c = s.timeStatus c := by
  obtain ⟨cmd, args⟩ := x
  by_cases h1 : cmd = .timeLeft
  · subst h1
    simp only [GS.step]
    unfold GS.timeLeft err
    split
    · rename_i a b d rest
      split
      · rename_i col time stones hc ht hs
        have hne : c ≠ col := by
          rintro rfl
          exact h ⟨time, stones, a, b, d, rest, rfl, (C62_colour _ _).1 hc, (C62_int _ _).1 ht, (C62_int _ _).1 hs⟩
        simp only [if_neg hne]
      · rfl
    · rfl
  · by_cases h2 : cmd = .timeSettings
    · subst h2
      simp only [GS.step]
      unfold GS.setTime err
      repeat' split
      all_goals rfl
    · by_cases h3 : cmd = .komi
      · subst h3
        simp only [GS.step]
        unfold GS.setKomi err
        repeat' split
        all_goals rfl
      · by_cases h4 : cmd = .loadsgf
        · subst h4
          simp only [GS.step]
          rw [(loadsgf_frame env s args).1]
        · rw [(step_frame env s cmd args h1 h2 h3 h4).1]

theorem timeSettings_valid {env : Env} {s : GS} {x : Cmd × List Str} {t : Int × Int × Int} (h : IsTimeSettings x t) :
    s.step env x.1 x.2 = ({ s with timeSettings := some t }, .value none) := by
  obtain ⟨a, b, d, rest, rfl, h1, h2, h3⟩ := h
  simp only [GS.step, GS.setTime, (C62_int a _).2 h1, (C62_int b _).2 h2, (C62_int d _).2 h3]

theorem timeSettings_other {env : Env} {s : GS} {x : Cmd × List Str} (h : ¬ ∃ t, IsTimeSettings x t) :
    (s.step env x.1 x.2).1.timeSettings = s.timeSettings := by
  obtain ⟨cmd, args⟩ := x
  by_cases h1 : cmd = .timeLeft
  · subst h1
    simp only [GS.step]
    unfold GS.timeLeft err
    repeat' split
    all_goals rfl
  · by_cases h2 : cmd = .timeSettings
    · subst h2
      simp only [GS.step]
      unfold GS.setTime err
      split
      · rename_i a b d rest
        split
        · rename_i m ct cs hm hc hs
          exact absurd ⟨(m, ct, cs), a, b, d, rest, rfl, (C62_int _ _).1 hm, (C62_int _ _).1 hc, (C62_int _ _).1 hs⟩ h
        · rfl
      · rfl
    · by_cases h3 : cmd = .komi
      · subst h3
        simp only [GS.step]
        unfold GS.setKomi err
        repeat' split
        all_goals rfl
      · by_cases h4 : cmd = .loadsgf
        · subst h4
          simp only [GS.step]
          rw [(loadsgf_frame env s args).2.1]
        · rw [(step_frame env s cmd args h1 h2 h3 h4).2.1]

theorem komi_valid {env : Env} {s : GS} {x : Cmd × List Str} {k : Rat} (h : IsKomi env.readFloat x k) :
    s.step env x.1 x.2 = ({ s with komi := max (-625) (min 625 k) }, .value none) := by
  obtain ⟨a, rest, rfl, h1⟩ := h
  simp only [GS.step, GS.setKomi, h1, clampKomi_eq]

theorem komi_other {env : Env} {s : GS} {x : Cmd × List Str} (h : ¬ ∃ k, IsKomi env.readFloat x k)
    (hl : x.1 = .loadsgf → Failed (s.step env x.1 x.2).2) : (s.step env x.1 x.2).1.komi = s.komi := by
  obtain ⟨cmd, args⟩ := x
  by_cases h1 : cmd = .timeLeft
  · subst h1
    simp only [GS.step]
    unfold GS.timeLeft err
    repeat' split
    all_goals rfl
  · by_cases h2 : cmd = .timeSettings
    · subst h2
      simp only [GS.step]
      unfold GS.setTime err
      repeat' split
      all_goals rfl
    · by_cases h3 : cmd = .komi
      · subst h3
        simp only [GS.step]
        unfold GS.setKomi err
        split
        · rfl
        · rename_i a rest
          split
          · rfl
          · rename_i k hk
            exact absurd ⟨k, a, rest, rfl, hk⟩ h
      · by_cases h4 : cmd = .loadsgf
        · subst h4
          simp only [GS.step]
          rcases (loadsgf_frame env s args).2.2 with h | h
          · exact h
          · exact absurd (hl rfl) h
        · rw [(step_frame env s cmd args h1 h2 h3 h4).2.2]

theorem cmds_cons (env : Env) (s : GS) (x : Cmd × List Str) (l : List (Cmd × List Str)) :
    after env s (x :: l) = after env (s.step env x.1 x.2).1 l := rfl

theorem cmds_append (env : Env) (s : GS) (l l' : List (Cmd × List Str)) :
    after env s (l ++ l') = after env (after env s l) l' := List.foldl_append

/-- A quantity which elements without the property don't change. -/
theorem cmds_keep {α : Type} (env : Env) (f : GS → α) (P : Cmd × List Str → Prop)
    (h : ∀ s x, ¬ P x → f (s.step env x.1 x.2).1 = f s) (l : List (Cmd × List Str)) :
    ∀ s, (∀ x ∈ l, ¬ P x) → f (after env s l) = f s := by
  induction l with
  | nil => intro s _; rfl
  | cons x l ih =>
    intro s hl
    rw [cmds_cons, ih _ (fun y hy => hl y (List.mem_cons_of_mem _ hy)), h s x (hl x List.mem_cons_self)]

theorem init_settings {acceptable : List Int} {s : GS} (h : GS.init acceptable = .ok s) :
    s.timeStatus = (fun _ => (none, none)) ∧ s.timeSettings = none ∧ s.komi = 0 ∧ s.history = [] := by
  unfold GS.init at h
  simp only [bind, Except.bind, pure, Except.pure] at h
  split at h
  · simp at h
  · split at h
    · simp at h
    · simp only [Except.ok.injEq] at h
      subst h
      exact ⟨rfl, rfl, rfl, rfl⟩

/-- C62: the clock. After any commands, the time and the number of stones the move generator is told are those given by the last
valid time_left for the player to move (zero stones is reported as None); nothing if there was none. -/
theorem C62_clock {env : Env} {acceptable : List Int} {s0 : GS} (h0 : GS.init acceptable = .ok s0) (cmds : List (Cmd × List Str))
    (c : Colour) (fr : Bool) :
    (∀ x t k, IsLast (fun y => ∃ t k, IsTimeLeft y c t k) cmds x → IsTimeLeft x c t k →
      (GS.gameState (after env s0 cmds) c fr).timeRemaining = some t ∧
      (GS.gameState (after env s0 cmds) c fr).canadianStonesRemaining = if k = 0 then none else some k) ∧
    ((∀ x ∈ cmds, ¬ ∃ t k, IsTimeLeft x c t k) →
      (GS.gameState (after env s0 cmds) c fr).timeRemaining = none ∧
      (GS.gameState (after env s0 cmds) c fr).canadianStonesRemaining = none) := by
  have hk := cmds_keep env (fun s => s.timeStatus c) (fun y => ∃ t k, IsTimeLeft y c t k) (fun s x h => timeLeft_other h)
  refine ⟨?_, ?_⟩
  · rintro x t k ⟨_, pre, post, rfl, hpost⟩ hx
    have h : (after env s0 (pre ++ x :: post)).timeStatus c = clockOf t k := by
      rw [cmds_append, cmds_cons, hk post _ hpost, timeLeft_valid hx]
      simp only [if_pos]
    unfold GS.gameState
    simp only [h]
    exact ⟨rfl, rfl⟩
  · intro h
    have h := hk cmds s0 h
    simp only [(init_settings h0).1] at h
    unfold GS.gameState
    simp only [h]
    exact ⟨trivial, trivial⟩

/-- C62: the time settings are those of the last valid time_settings; nothing if there was none. -/
theorem C62_time_settings {env : Env} {acceptable : List Int} {s0 : GS} (h0 : GS.init acceptable = .ok s0)
    (cmds : List (Cmd × List Str)) (c : Colour) (fr : Bool) :
    (∀ x t, IsLast (fun y => ∃ t, IsTimeSettings y t) cmds x → IsTimeSettings x t →
      (GS.gameState (after env s0 cmds) c fr).timeSettings = some t) ∧
    ((∀ x ∈ cmds, ¬ ∃ t, IsTimeSettings x t) → (GS.gameState (after env s0 cmds) c fr).timeSettings = none) := by
  have hk := cmds_keep env (fun s => s.timeSettings) (fun y => ∃ t, IsTimeSettings y t) (fun s x h => timeSettings_other h)
  refine ⟨?_, ?_⟩
  · rintro x t ⟨_, pre, post, rfl, hpost⟩ hx
    show (after env s0 (pre ++ x :: post)).timeSettings = _
    rw [cmds_append, cmds_cons, hk post _ hpost, timeSettings_valid hx]
  · intro h
    show (after env s0 cmds).timeSettings = _
    rw [hk cmds s0 h, (init_settings h0).2.1]

/-- C62: the komi is that of the last valid komi command, between -625 and 625, unless a game has been loaded since (see C34_loadsgf);
zero if there was neither.  A loadsgf which fails doesn't change it. -/
theorem C62_komi {env : Env} {acceptable : List Int} {s0 : GS} (h0 : GS.init acceptable = .ok s0)
    (cmds : List (Cmd × List Str)) (c : Colour) (fr : Bool) :
    (∀ x k, IsLast (fun y => y.1 = .loadsgf ∨ ∃ k, IsKomi env.readFloat y k) cmds x → IsKomi env.readFloat x k →
      (GS.gameState (after env s0 cmds) c fr).komi = max (-625) (min 625 k)) ∧
    ((∀ x ∈ cmds, ¬ (x.1 = .loadsgf ∨ ∃ k, IsKomi env.readFloat x k)) → (GS.gameState (after env s0 cmds) c fr).komi = 0) ∧
    ∀ args o s', (after env s0 cmds).step env .loadsgf args = (s', o) → Failed o →
      (s'.gameState c fr).komi = (GS.gameState (after env s0 cmds) c fr).komi := by
  have hk := cmds_keep env (fun s => s.komi) (fun y => y.1 = .loadsgf ∨ ∃ k, IsKomi env.readFloat y k)
    (fun s x h => komi_other (fun h' => h (.inr h')) (fun h' => absurd (.inl h') h))
  refine ⟨?_, ?_, ?_⟩
  · rintro x t ⟨_, pre, post, rfl, hpost⟩ hx
    show (after env s0 (pre ++ x :: post)).komi = _
    rw [cmds_append, cmds_cons, hk post _ hpost, komi_valid hx]
  · intro h
    show (after env s0 cmds).komi = _
    rw [hk cmds s0 h, (init_settings h0).2.2.1]
  · intro args o s' h hf
    show s'.komi = (after env s0 cmds).komi
    rcases (loadsgf_frame env (after env s0 cmds) args).2.2 with h1 | h1
    · have h : (after env s0 cmds).loadsgf env args = (s', o) := h
      rw [h] at h1
      exact h1
    · have h : (after env s0 cmds).loadsgf env args = (s', o) := h
      rw [h] at h1
      exact absurd hf h1

/-! ### what the generator is told, and what becomes of its answer -/

/-- What the three commands which ask for a move do with the generator: whether a claim is allowed, and whether it is for
regression testing. -/
def genmoveKind (c : Cmd) (extra : List Str) : Option (Bool × Bool) :=
  match c with
  | .genmove => some (false, false)
  | .genmoveEx => some (decide ("claim".toList ∈ extra), false)
  | .regGenmove => some (false, true)
  | _ => none

theorem step_genmove {env : Env} {s : GS} {c : Cmd} {a : Str} {extra : List Str} {claim fr : Bool}
    (hk : genmoveKind c extra = some (claim, fr)) :
    s.step env c (a :: extra) = s.handleGenmove env [a] fr claim := by
  unfold genmoveKind at hk
  cases c <;> simp only [Option.some.injEq, Prod.mk.injEq, reduceCtorEq] at hk <;> obtain ⟨rfl, rfl⟩ := hk <;> simp only [GS.step]
  · rfl
  · unfold GS.genmoveEx
    rw [if_neg (by simp)]
    simp only [List.take_succ_cons, List.take_zero, List.drop_succ_cons, List.drop_zero]
    congr 1
    rw [Bool.eq_iff_iff]
    simp only [List.any_eq_true, decide_eq_true_eq, exists_eq_right]
  · rfl

/-- C62: the generator is asked once, and only about the game as described by `gameState`: nothing else about it can make a
difference. -/
theorem C62_only_told {env env' : Env} {s : GS} {c : Cmd} {a : Str} {extra : List Str} {claim fr : Bool} {col : Colour}
    (hk : genmoveKind c extra = some (claim, fr)) (hc : IsColour a col)
    (hg : env.generate (s.gameState col fr) col = env'.generate (s.gameState col fr) col) :
    s.step env c (a :: extra) = s.step env' c (a :: extra) := by
  rw [step_genmove hk, step_genmove hk]
  simp only [GS.handleGenmove, (C62_colour a col).2 hc, hg]

/-- C62: what it is told: the board size, the game so far (the board is the one obtained by the rules from the base position and
the history), the ko point if it is one for the player to move, the handicap, the komi, the clock, and whether this is a
regression test. -/
theorem C62_told {env : Env} {acceptable : List Int} {s : GS} (h : Reached env acceptable s) (col : Colour) (fr : Bool) :
    ∃ n : Nat, (s.gameState col fr).size = n ∧ ReachableBoard n (s.gameState col fr).board ∧
      ReachableBoard n (s.gameState col fr).base ∧
      AllLegal n (s.gameState col fr).base.pos (mvs (s.gameState col fr).history) ∧
      (s.gameState col fr).board.pos = replay n (s.gameState col fr).base.pos (mvs (s.gameState col fr).history) ∧
      (∀ p, (s.gameState col fr).koPoint = some p →
        KoOfLastStone n (s.gameState col fr).base.pos (mvs (s.gameState col fr).history) p col) ∧
      (¬ EndsWithPass (mvs (s.gameState col fr).history) → ∀ p, (s.gameState col fr).koPoint = some p ↔
        KoOfLastStone n (s.gameState col fr).base.pos (mvs (s.gameState col fr).history) p col) ∧
      (s.gameState col fr).history = s.history ∧ (s.gameState col fr).komi = s.komi ∧
      (s.gameState col fr).handicap = s.handicap ∧ (s.gameState col fr).forRegression = fr := by
  obtain ⟨n, h1, h2, h3, h4, h5⟩ := C34_board_is_replay h
  exact ⟨n, h1, h3, h2, h4, h5, fun p hp => C34_ko_sound h n h1 col fr p hp, fun hne p => C34_ko h hne n h1 col fr p,
    rfl, rfl, rfl, rfl⟩

/-- What becomes of the generator's answer: `claim` says whether a claim is allowed, `fr` whether it is a regression test. -/
def AnswerSpec (n : Nat) (s : GS) (col : Colour) (claim fr : Bool) (g : Option GenResult) (s' : GS) (o : Outcome) : Prop :=
  match g with
  | none => s' = s ∧ o = .exception []
  | some g =>
    if claim = true ∧ g.claim = true then s' = s ∧ o = .value (some "claim".toList)
    else if g.resign = true then s' = s ∧ o = .value (some "resign".toList)
    else if g.passMove = true then
      o = .value (some "pass".toList) ∧
      if fr = true then s' = s
      else s' = { s with history := s.history ++ [⟨col, none, g.comments, g.cookie⟩] }
    else match g.move with
      | none => s' = s ∧ o = .exception []
      | some p =>
        (¬ OnBoard 25 p ∧ s' = s ∧ o = .exception []) ∨
        ∃ v, formatVertex (some p) = .ok v ∧
          if fr = true then s' = s ∧ o = .value (some v)
          else
            (¬ OnBoard n p ∧ s' = s ∧ o = .exception []) ∨
            (OnBoard n p ∧ s.board.pos p ≠ none ∧ s' = s ∧ o = .gtpError ("engine error: tried to play ".toList ++ v)) ∨
            (OnBoard n p ∧ s.board.pos p = none ∧ o = .value (some v) ∧ s'.board.pos = rulesPlay n s.board.pos p col ∧
              s' = { s with board := s'.board, koPoint := s'.koPoint, koPlayer := s'.koPlayer,
                            history := s.history ++ [⟨col, some p, g.comments, g.cookie⟩] })

theorem genmove_answer {n : Nat} {env : Env} {s : GS} (hi : Inv n s) {a : Str} {claim fr : Bool} {col : Colour}
    (hc : IsColour a col) :
    AnswerSpec n s col claim fr (env.generate (s.gameState col fr) col) (s.handleGenmove env [a] fr claim).1
      (s.handleGenmove env [a] fr claim).2 := by
  unfold GS.handleGenmove exc AnswerSpec
  simp only [(C62_colour a col).2 hc]
  cases env.generate (s.gameState col fr) col with
  | none => exact ⟨rfl, rfl⟩
  | some g =>
    simp only [Bool.and_eq_true]
    by_cases h1 : claim = true ∧ g.claim = true
    · simp only [if_pos h1, true_and]
    · simp only [if_neg h1]
      by_cases h2 : g.resign = true
      · simp only [if_pos h2, true_and]
      · simp only [if_neg h2]
        by_cases h3 : g.passMove = true
        · simp only [if_pos h3, true_and]
          by_cases h4 : fr = true
          · simp only [if_pos h4]
          · simp only [if_neg h4]
        · simp only [if_neg h3]
          cases hm : g.move with
          | none => exact ⟨rfl, rfl⟩
          | some p =>
            obtain ⟨row, col'⟩ := p
            simp only
            cases hv : formatVertex (some (row, col')) with
            | error e =>
              simp only
              refine .inl ⟨?_, trivial, trivial⟩
              intro hb
              obtain ⟨v, hv'⟩ := (C14_format_total (row, col')).1.1 hb
              rw [hv] at hv'; cases hv'
            | ok v =>
              refine .inr ⟨v, rfl, ?_⟩
              by_cases h4 : fr = true
              · simp only [if_pos h4, true_and]
              · simp only [if_neg h4]
                have herr := C06_play_errors hi.board defaultPops (row, col') col
                by_cases hb : OnBoard n (row, col')
                · by_cases he : s.board.pos (row, col') = none
                  · right; right
                    obtain ⟨ko, b', h5, h6⟩ := C06_play_follows_rules hi.board defaultPops (row, col') col hb he
                    have h5' : s.board.play row col' col = .ok (ko, b') := h5
                    rw [h5']
                    exact ⟨hb, he, rfl, h6, rfl⟩
                  · right; left
                    have h5 : s.board.play row col' col = .error .valueError := herr.2 hb he
                    rw [h5]
                    exact ⟨hb, he, rfl, rfl⟩
                · left
                  have h5 : s.board.play row col' col = .error .indexError := herr.1 hb
                  rw [h5]
                  exact ⟨hb, rfl, rfl⟩

/-- C62: what genmove, gomill-genmove_ex and reg_genmove do with the generator's answer. -/
theorem C62_genmove {env : Env} {acceptable : List Int} {s s' : GS} (h : Reached env acceptable s) (n : Nat) (hn : s.boardSize = n)
    {c : Cmd} {a : Str} {extra : List Str} {claim fr : Bool} {col : Colour} {o : Outcome}
    (hk : genmoveKind c extra = some (claim, fr)) (hc : IsColour a col) (hs : s.step env c (a :: extra) = (s', o)) :
    AnswerSpec n s col claim fr (env.generate (s.gameState col fr) col) s' o := by
  obtain ⟨m, hi⟩ := h.inv
  have : n = m := by have := hi.size; omega
  subst this
  rw [step_genmove hk] at hs
  have := genmove_answer (env := env) (claim := claim) (fr := fr) hi hc
  rw [hs] at this
  exact this

/-- C62: without a valid colour the generator isn't asked (genmove_ex alone lists its keyword). -/
theorem C62_genmove_bad {env : Env} {s : GS} {c : Cmd} {args : List Str} (hc : c = .genmove ∨ c = .genmoveEx ∨ c = .regGenmove) :
    (args = [] → s.step env c args = if c = .genmoveEx then (s, .value (some "claim".toList)) else
      (s, .gtpError "invalid arguments".toList)) ∧
    (∀ a extra, args = a :: extra → (¬ ∃ col, IsColour a col) → s.step env c args = (s, .gtpError "invalid colour".toList)) := by
  refine ⟨?_, ?_⟩
  · rintro rfl
    rcases hc with rfl | rfl | rfl <;> rfl
  · rintro a extra rfl hno
    have hk : ∃ claim fr, genmoveKind c extra = some (claim, fr) := by
      rcases hc with rfl | rfl | rfl <;> exact ⟨_, _, rfl⟩
    obtain ⟨claim, fr, hk⟩ := hk
    rw [step_genmove hk]
    have : interpretColour a = none := by
      cases h : interpretColour a with
      | none => rfl
      | some col => exact absurd ⟨col, (C62_colour _ _).1 h⟩ hno
    simp only [GS.handleGenmove, this]
    rfl

/-- C62: explain_last_move gives what the generator said about the last move: nothing for a move which was played rather than
generated, or if there is no move. -/
theorem C62_explain {env : Env} {acceptable : List Int} {s s' : GS} (h : Reached env acceptable s) (args : List Str) :
    (s.history = [] → s.step env .explainLastMove args = (s, .value none)) ∧
    (∀ l m, s.history = l ++ [m] → s.step env .explainLastMove args = (s, .value m.comments)) ∧
    (∀ args' r, s.step env .play args' = (s', .value r) → s'.step env .explainLastMove args = (s', .value none)) ∧
    (∀ c a extra claim col g v, genmoveKind c extra = some (claim, false) → IsColour a col →
      env.generate (s.gameState col false) col = some g → ¬ (claim = true ∧ g.claim = true) → g.resign = false →
      s.step env c (a :: extra) = (s', .value v) → s'.step env .explainLastMove args = (s', .value g.comments)) := by
  have key : ∀ (t : GS) l m, t.history = l ++ [m] → t.step env .explainLastMove args = (t, .value m.comments) := by
    intro t l m ht
    simp only [GS.step, GS.explainLastMove, ht, List.getLast?_concat]
  refine ⟨?_, key s, ?_, ?_⟩
  · intro hh
    simp only [GS.step, GS.explainLastMove, hh, List.getLast?_nil]
  · intro args' r hs
    rcases C34_play h hs with ⟨hf, _⟩ | ⟨_, c, v, r', col, m, _, _, _, h5, _⟩
    · exact absurd hf failed_value
    · exact key s' _ _ h5
  · intro c a extra claim col g v hk hc hg hcl hr hs
    obtain ⟨n, hi⟩ := h.inv
    have ha := C62_genmove h n hi.size hk hc hs
    rw [hg] at ha
    unfold AnswerSpec at ha
    simp only [if_neg hcl, hr, Bool.false_eq_true, if_false] at ha
    by_cases h3 : g.passMove = true
    · simp only [if_pos h3] at ha
      exact key s' s.history ⟨col, none, g.comments, g.cookie⟩ (by rw [ha.2])
    · simp only [if_neg h3] at ha
      cases hm : g.move with
      | none => rw [hm] at ha; exact nomatch ha.2
      | some p =>
        rw [hm] at ha
        simp only at ha
        rcases ha with ⟨_, _, h5⟩ | ⟨v', _, ⟨_, _, h5⟩ | ⟨_, _, _, h5⟩ | ⟨_, _, _, _, h5⟩⟩
        · cases h5
        · cases h5
        · cases h5
        · exact key s' s.history ⟨col, some p, g.comments, g.cookie⟩ (by rw [h5])

/-- C62: the helpers for move generators: the last move, if it was the opponent's; and the cookie which the generator gave with
the move before it, if that was the player's own. -/
theorem C62_last_move (history : List HistMove) (player : Colour) :
    (∀ m, getLastMove history player = (true, m) ↔ ∃ l x, history = l ++ [x] ∧ x.colour = player.opponent ∧ x.move = m) ∧
    ((¬ ∃ l x, history = l ++ [x] ∧ x.colour = player.opponent) → getLastMoveAndCookie history player = (false, none, none)) ∧
    (∀ l y x, history = l ++ [y, x] → x.colour = player.opponent → getLastMoveAndCookie history player =
      (true, x.move, if y.colour = player then y.cookie else none)) ∧
    (∀ x, history = [x] → x.colour = player.opponent → getLastMoveAndCookie history player = (true, x.move, none)) ∧
    getLastMove history player = ((getLastMoveAndCookie history player).1, (getLastMoveAndCookie history player).2.1) := by
  have hnil : getLastMove [] player = (false, none) := rfl
  have hsnoc : ∀ l x, getLastMove (l ++ [x]) player = if x.colour ≠ player.opponent then (false, none) else (true, x.move) := by
    intro l x; unfold getLastMove; rw [List.getLast?_concat]
  refine ⟨?_, ?_, ?_, ?_, rfl⟩
  · intro m
    rcases List.eq_nil_or_concat history with rfl | ⟨l, x, rfl⟩
    · rw [hnil]
      exact ⟨fun h => (by cases h), fun ⟨l, x, h, _⟩ => by simp at h⟩
    · rw [List.concat_eq_append, hsnoc]
      constructor
      · intro h
        split at h
        · cases h
        · rename_i hc
          cases h
          exact ⟨l, x, rfl, not_not.1 hc, rfl⟩
      · rintro ⟨l', x', h, h1, h2⟩
        have := (List.append_inj' h rfl).2
        cases this
        rw [if_neg (not_not.2 h1), h2]
  · intro hno
    rcases List.eq_nil_or_concat history with rfl | ⟨l, x, rfl⟩
    · rfl
    · rw [List.concat_eq_append] at hno ⊢
      unfold getLastMoveAndCookie
      rw [hsnoc, if_pos (fun h => hno ⟨l, x, rfl, h⟩)]
      rfl
  · rintro l y x rfl hx
    have hh : l ++ [y, x] = (l ++ [y]) ++ [x] := by simp
    unfold getLastMoveAndCookie
    rw [hh, hsnoc, if_neg (not_not.2 hx)]
    simp only [List.dropLast_concat, List.getLast?_concat, if_true]
  · rintro x rfl hx
    unfold getLastMoveAndCookie
    have := hsnoc [] x
    rw [List.nil_append] at this
    rw [this, if_neg (not_not.2 hx)]
    rfl

/-! ### an example -/

/-- A generator which plays B2 and says so, and gives up if it has less than five seconds left. -/
def toldEnv : Env where
  generate := fun g _ =>
    if g.timeRemaining = some 3 then some { resign := true }
    else some { move := some (1, 1), comments := some "centre".toList, cookie := some 7, claim := true }
  readFloat := fun _ => some 700
  file := fun _ => none
  codec := fun _ => true

def toldCmds : List (Cmd × List Str) :=
  [(.timeSettings, ["300".toList, "99999999999".toList, "-3".toList]), (.timeLeft, ["b".toList, "20".toList, "0".toList]),
   (.timeLeft, ["White".toList, "3".toList, "5".toList]), (.komi, ["x".toList])]

/-- C62: a session in which the clocks matter. -/
theorem C62_witness :
    (GS.gameState (after toldEnv testGS toldCmds) .b false).timeRemaining = some 20 ∧
    (GS.gameState (after toldEnv testGS toldCmds) .b false).canadianStonesRemaining = none ∧
    (GS.gameState (after toldEnv testGS toldCmds) .w false).canadianStonesRemaining = some 5 ∧
    (GS.gameState (after toldEnv testGS toldCmds) .b false).timeSettings = some (300, 2147483647, -1) ∧
    ((after toldEnv testGS toldCmds).step toldEnv .genmove ["w".toList]).2 = .value (some "resign".toList) ∧
    ((after toldEnv testGS toldCmds).step toldEnv .genmove ["b".toList]).2 = .value (some "B2".toList) ∧
    ((after toldEnv testGS toldCmds).step toldEnv .genmoveEx ["b".toList, "claim".toList]).2 = .value (some "claim".toList) ∧
    ((after toldEnv testGS (toldCmds ++ [(.genmove, ["b".toList])])).step toldEnv .explainLastMove []).2 =
      .value (some "centre".toList) := by
  decide +kernel

theorem C62_witness_komi : (after toldEnv testGS toldCmds).komi = 625 := by decide +kernel

end Gomill.Gtp
