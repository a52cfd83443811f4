import Verif.Lemmas.GtpGame
import Verif.Lemmas.GtpScore
/-
Lemmas for C58: _Gtp_backend keeps the invariant of the game controller.
-/
namespace Gomill.Gtp
open Py Go

variable {σ τ : Type}
variable {lv : Prop}

/-- The exceptions which can come out of a running Gtp_game, and the state they leave. -/
def GErr (lv : Prop) (cfg : GtpCfg τ) (gc0 : GC σ) (o : Bool) (env : GEnv σ τ) (e : GExc) : Prop :=
  (e = .backend 1 ∧ o = false ∧ GCBroken gc0 env.gc) ∨
  (∃ k c m b u, e = .backend (k + 3) ∧ (cfg.callback c m b u).1 = .error k ∧ ((∀ p, m = some p → OnBoard cfg.boardSize p) ∧ BoardInv cfg.boardSize b) ∧ GCOK lv o gc0 env.gc) ∨
  (o = true ∧ cfg.internal = false ∧ GCOK lv true gc0 env.gc ∧ ∃ c s w x, (c, s) ∈ env.scores ∧ Says cfg.float s (some w) (some x) ∧
    (x = .inf ∧ e = .overflowError ∨ x = .nan ∧ e = .py .valueError))

theorem GErr.ofG {cfg : GtpCfg τ} {gc0 : GC σ} {o : Bool} {env : GEnv σ τ} {e : CExc} {gc : GC σ} {α : Type}
    (h : GPost lv False o gc0 ((.error e, gc) : Except CExc α × GC σ)) : GErr lv cfg gc0 o { env with gc := gc } e.toG := by
  cases e with
  | badResponse m g => exact h.1.elim
  | channel x => exact .inl ⟨rfl, h⟩
  | value => exact h.elim
  | channelIsClosed => exact h.elim

theorem GErr.ofG' {cfg : GtpCfg τ} {gc0 : GC σ} {o : Bool} {env : GEnv σ τ} {e : CExc} {gc : GC σ} {α : Type}
    (h : GPost lv True o gc0 ((.error e, gc) : Except CExc α × GC σ)) (hn : ∀ m g, e ≠ .badResponse m g) : GErr lv cfg gc0 o { env with gc := gc } e.toG := by
  cases e with
  | badResponse m g => exact absurd rfl (hn m g)
  | channel x => exact .inl ⟨rfl, h⟩
  | value => exact h.elim
  | channelIsClosed => exact h.elim

theorem moveFromVertex_on {s : Str} {n : Nat} {p : Pt} (h : moveFromVertex s n = .ok (some p)) : OnBoard n p := by
  rcases C14_total s n with h' | ⟨q, h', hq, _⟩ | h'
  · rw [h] at h'; cases h'
  · rw [h] at h'; cases h'; exact hq
  · rw [h] at h'; cases h'

theorem genmove_keeps (C : Colour → Channel σ) (cfg : GtpCfg τ) {gc0 : GC σ} (c : Colour) (mayClaim : Bool) (env : GEnv σ τ) (h : GCOK lv false gc0 env.gc) :
    Post (fun env => GCOK lv false gc0 env.gc) (GErr lv cfg gc0 false) (fun act : Act => act ≠ .bad ∧ ∀ p, act = .move (some p) → OnBoard cfg.boardSize p)
      (genmove C cfg c mayClaim env) := by
  unfold genmove
  simp only
  generalize hcmd : (if mayClaim then "gomill-genmove_ex".toList else "genmove".toList) = command
  generalize hargs : (if mayClaim then [colourWord c, "claim".toList] else [colourWord c]) = args
  have hw : isWellFormedWord command = true ∧ ∀ a ∈ args, isWellFormedWord a = true := by
    subst hcmd hargs
    cases mayClaim
    · exact ⟨by decide +kernel, by simpa using word_colour c⟩
    · refine ⟨by decide +kernel, ?_⟩
      simp only [if_true, List.mem_cons, List.not_mem_nil, or_false, forall_eq_or_imp, forall_eq]
      exact ⟨word_colour c, by decide +kernel⟩
  have hs := send_post C h c hw
  cases hx : env.gc.send C c command args with
  | mk x gc =>
    rw [hx] at hs
    cases x with
    | error e =>
      cases e with
      | badResponse m g => exact ⟨hs.2, by simp, by simp⟩
      | channel e => exact GErr.ofG' hs (by simp)
      | value => exact hs.elim
      | channelIsClosed => exact hs.elim
    | ok raw =>
      simp only
      split
      · exact ⟨hs, by simp, by simp⟩
      · split
        · exact ⟨hs, by simp, by simp⟩
        · split
          · rename_i m hm
            refine ⟨hs, by simp, ?_⟩
            intro p hp
            cases hp
            exact moveFromVertex_on hm
          · exact ⟨hs, by simp, by simp⟩

theorem getMove_keeps (C : Colour → Channel σ) (cfg : GtpCfg τ) {gc0 : GC σ} (c : Colour) (env : GEnv σ τ) (h : GCOK lv false gc0 env.gc) :
    Post (fun env => GCOK lv false gc0 env.gc) (GErr lv cfg gc0 false) (fun act : Act => act ≠ .bad ∧ ∀ p, act = .move (some p) → OnBoard cfg.boardSize p)
      (getMove C cfg c env) := by
  unfold getMove
  split
  · have hk := known_post C h c (command := "gomill-genmove_ex".toList) (by decide +kernel)
    cases hx : env.gc.knownCommand C c "gomill-genmove_ex".toList with
    | mk x gc =>
      rw [hx] at hk
      cases x with
      | error e => exact GErr.ofG hk
      | ok b => exact genmove_keeps C cfg c b _ hk
  · exact genmove_keeps C cfg c false env h

theorem comment_keeps (C : Colour → Channel σ) (cfg : GtpCfg τ) {gc0 : GC σ} (o : Bool) (c : Colour) (env : GEnv σ τ) (h : GCOK lv o gc0 env.gc) :
    Post (fun env => GCOK lv o gc0 env.gc) (GErr lv cfg gc0 o) (fun _ : Option Str => True) (getLastMoveComment C cfg c env) := by
  unfold getLastMoveComment
  have hk := maybe_post C h c (command := "gomill-explain_last_move".toList) (args := []) ⟨by decide +kernel, by simp⟩
  cases hx : env.gc.maybeSend C c "gomill-explain_last_move".toList [] with
  | mk x gc =>
    rw [hx] at hk
    cases x with
    | error e => exact GErr.ofG hk
    | ok r =>
      cases r with
      | none => exact ⟨hk, trivial⟩
      | some s => exact ⟨hk, trivial⟩

theorem notify_keeps (C : Colour → Channel σ) (cfg : GtpCfg τ) {gc0 : GC σ} (hn : cfg.boardSize ≤ 25) (o : Bool) (c : Colour) (m : Option Pt) (env : GEnv σ τ)
    (h : GCOK lv o gc0 env.gc) (hm : ∀ p, m = some p → OnBoard cfg.boardSize p) :
    Post (fun env => GCOK lv o gc0 env.gc) (GErr lv cfg gc0 o) (fun sm : Status × Option Str => sm.1 ≠ .bad) (notifyMove C c m env) := by
  unfold notifyMove
  have hf : ∃ v, formatVertex m = .ok v := by
    cases m with
    | none => exact ⟨_, rfl⟩
    | some p =>
      refine (C14_format_total p).1.1 ?_
      obtain ⟨h1, h2, h3, h4⟩ := hm p rfl
      exact ⟨h1, by omega, h3, by omega⟩
  obtain ⟨v, hv⟩ := hf
  rw [hv]
  simp only
  have hs := send_post C h c (command := "play".toList) (args := [colourWord c.opponent, v])
    ⟨by decide +kernel, by
      simp only [List.mem_cons, List.not_mem_nil, or_false, forall_eq_or_imp, forall_eq]
      exact ⟨word_colour _, word_formatVertex hv⟩⟩
  cases hx : env.gc.send C c "play".toList [colourWord c.opponent, v] with
  | mk x gc =>
    rw [hx] at hs
    cases x with
    | error e =>
      cases e with
      | badResponse m g =>
        simp only
        split
        · exact ⟨hs.2, by simp⟩
        · exact ⟨hs.2, by simp⟩
      | channel e => exact GErr.ofG' hs (by simp)
      | value => exact hs.elim
      | channelIsClosed => exact hs.elim
    | ok r => exact ⟨hs, by simp⟩

theorem ask_post (C : Colour → Channel σ) {o : Bool} {gc0 : GC σ} : ∀ (cs : List Colour) (gc : GC σ), GCOK lv o gc0 gc → GPost lv False o gc0 (askScorers C cs gc) := by
  intro cs
  induction cs with
  | nil => intro gc h; exact h
  | cons c cs ih =>
    intro gc h
    unfold askScorers
    have hm := maybe_post C h c (command := "final_score".toList) (args := []) ⟨by decide +kernel, by simp⟩
    cases hx : gc.maybeSend C c "final_score".toList [] with
    | mk x gc1 =>
      rw [hx] at hm
      cases x with
      | error e => cases e <;> exact hm
      | ok r =>
        simp only
        have h1 := ih gc1 hm
        cases hy : askScorers C cs gc1 with
        | mk y gc2 =>
          rw [hy] at h1
          cases y with
          | error e => cases e <;> exact h1
          | ok l => exact h1

/-! ### Scores -/

/-- What the engines' responses lead to, in terms of `Says`. -/
theorem votes_spec (float : Str → Option Num) (raw : List (Colour × Str)) (w : Option Colour) (m : Option Num) :
    (w, m) ∈ raw.filterMap (fun x => readScore float x.2) ↔ ∃ r ∈ raw.map Prod.snd, Says float r w m := by
  simp only [List.mem_filterMap, List.mem_map]
  constructor
  · rintro ⟨x, hx, hr⟩
    exact ⟨x.2, ⟨x, hx, rfl⟩, (readScore_iff float x.2 w m).1 hr⟩
  · rintro ⟨r, ⟨x, hx, rfl⟩, hr⟩
    exact ⟨x, hx, (readScore_iff float x.2 w m).2 hr⟩

theorem says_win_margin {float : Str → Option Num} {r : Str} {c : Colour} {x : Num} (h : Says float r (some c) (some x)) :
    x.isNeg = false ∧ x.isZero = false := by
  obtain ⟨t, _, h2⟩ := h
  unfold marginSaid at h2
  split at h2
  · split at h2
    · rename_i hq
      cases h2
      simp only [Num.isNeg, Num.isZero, decide_eq_false_iff_not, not_lt]
      exact ⟨le_of_lt hq, ne_of_gt hq⟩
    · cases h2
  · cases h2; exact ⟨rfl, rfl⟩
  · cases h2; exact ⟨rfl, rfl⟩
  · cases h2

/-- The margin of the decision is one of those given for the winner; for a jigo it is 0. -/
theorem consensus_margin (float : Str → Option Num) (raw : List (Colour × Str)) :
    let d := consensus (raw.filterMap (fun x => readScore float x.2))
    (∀ c x, d.1 = some c → d.2.1 = some x → ∃ p ∈ raw, Says float p.2 (some c) (some x)) ∧
    (∀ x, d.1 = none → d.2.1 = some x → x = .fin 0) := by
  intro d
  have hd : d = consensus (raw.filterMap (fun x => readScore float x.2)) := rfl
  generalize hv : raw.filterMap (fun x => readScore float x.2) = votes at hd
  obtain ⟨c1, c2, c3⟩ := consensus_spec votes
  have key : ∀ w x, d.1 = w → d.2.1 = some x → ∃ r ∈ raw.map Prod.snd, Says float r w (some x) := by
    intro w x h1 h2
    by_cases hu : votes ≠ [] ∧ ∀ v ∈ votes, v.1 = w
    · obtain ⟨_, _, k3⟩ := c1 w hu
      rw [hd] at h2
      obtain ⟨⟨_, ha⟩, _⟩ := (k3 x).1 h2
      obtain ⟨v, hvm⟩ := List.exists_mem_of_ne_nil _ hu.1
      rw [← votes_spec, hv]
      have e1 := hu.2 v hvm
      have e2 := ha v hvm
      rw [← e1, ← e2]
      exact hvm
    · exfalso
      by_cases hne : votes = []
      · rw [hd, c2 hne] at h2
        cases h2
      · by_cases hdiff : ∃ v ∈ votes, ∃ v' ∈ votes, v.1 ≠ v'.1
        · rw [hd, c3 hdiff] at h2
          cases h2
        · push Not at hdiff
          obtain ⟨v, hvm⟩ := List.exists_mem_of_ne_nil _ hne
          have hall : ∀ v' ∈ votes, v'.1 = v.1 := fun v' hv' => (hdiff v hvm v' hv').symm
          have := (c1 v.1 ⟨hne, hall⟩).1
          rw [hd, this] at h1
          exact hu ⟨hne, fun v' hv' => (hall v' hv').trans h1⟩
  constructor
  · intro c x h1 h2
    obtain ⟨r, hr, hs⟩ := key (some c) x h1 h2
    obtain ⟨p, hp, rfl⟩ := List.mem_map.1 hr
    exact ⟨p, hp, hs⟩
  · intro x h1 h2
    obtain ⟨r, _, hs⟩ := key none x h1 h2
    have := hs.2
    cases this
    rfl

/-- Making the Gtp_game_score doesn't raise. -/
theorem consensus_make (float : Str → Option Num) (raw : List (Colour × Str)) :
    GameScore.make (consensus (raw.filterMap (fun x => readScore float x.2))).1 (consensus (raw.filterMap (fun x => readScore float x.2))).2.1 =
      .ok ⟨(consensus (raw.filterMap (fun x => readScore float x.2))).1, (consensus (raw.filterMap (fun x => readScore float x.2))).2.1, false⟩ := by
  obtain ⟨h1, h2⟩ := consensus_margin float raw
  rw [C29_game_score, if_neg]
  rintro ⟨m, hm, hor⟩
  cases hw : (consensus (raw.filterMap (fun x => readScore float x.2))).1 with
  | none =>
    have := h2 m hw hm
    subst this
    rw [hw] at hor
    simp [Num.isNeg, Num.isZero] at hor
  | some c =>
    obtain ⟨p, _, hs⟩ := h1 c m hw hm
    obtain ⟨k1, k2⟩ := says_win_margin hs
    rw [hw, k1, k2] at hor
    simp at hor

/-- Making a Result from it fails only if the margin is an infinity or a NaN. -/
theorem consensus_result (fmt : Rat → Str) (float : Str → Option Num) (raw : List (Colour × Str)) (b : Bool) (e : GExc)
    (h : Res.fromGameScore fmt ⟨(consensus (raw.filterMap (fun x => readScore float x.2))).1, (consensus (raw.filterMap (fun x => readScore float x.2))).2.1, b⟩ = .error e) :
    ∃ p ∈ raw, ∃ w x, Says float p.2 (some w) (some x) ∧ (x = .inf ∧ e = .overflowError ∨ x = .nan ∧ e = .py .valueError) := by
  obtain ⟨h1, h2⟩ := consensus_margin float raw
  generalize consensus (raw.filterMap (fun x => readScore float x.2)) = d at *
  obtain ⟨w, m, dis⟩ := d
  simp only at h1 h2 h
  unfold Res.fromGameScore Res.fromScore at h
  simp only at h
  cases m with
  | none => cases h
  | some m =>
    cases w with
    | none =>
      have := h2 m rfl rfl
      subst this
      simp [Num.isNeg, Num.isZero] at h
    | some c =>
      obtain ⟨p, hp, hs⟩ := h1 c m rfl rfl
      obtain ⟨k1, k2⟩ := says_win_margin hs
      simp only [k1, k2, Bool.false_eq_true, if_false] at h
      refine ⟨p, hp, c, m, hs, ?_⟩
      cases m with
      | fin q => simp [formatFloat] at h
      | inf => simp only [formatFloat] at h; cases h; exact .inl ⟨rfl, rfl⟩
      | negInf => cases k1
      | nan => simp only [formatFloat] at h; cases h; exact .inr ⟨rfl, rfl⟩

theorem score_keeps (C : Colour → Channel σ) (cfg : GtpCfg τ) {gc0 : GC σ} (fmt : Rat → Str) (b : Board) (env : GEnv σ τ) (h : GCOK lv true gc0 env.gc) :
    ScorePost fmt (fun env => GCOK lv true gc0 env.gc) (GErr lv cfg gc0 true) (scoreGame C cfg b env) := by
  unfold scoreGame
  by_cases hint : cfg.internal = true
  · rw [if_pos hint]
    obtain ⟨s, hs, _⟩ := C29_from_position b cfg.komi cfg.comp (env.handicap.getD 0)
    obtain ⟨r, hr, _⟩ := C29_result fmt b cfg.komi cfg.comp (env.handicap.getD 0) s hs
    rw [hs]
    refine ⟨h, ?_⟩
    intro x hx
    rw [hr] at hx
    cases hx
  · rw [if_neg hint]
    unfold scoreGameGtp
    have ha := ask_post C (o := true) (gc0 := gc0) cfg.scorers env.gc h
    cases hx : askScorers C cfg.scorers env.gc with
    | mk x gc =>
      rw [hx] at ha
      cases x with
      | error e => exact GErr.ofG ha
      | ok raw =>
        simp only
        rw [consensus_make]
        simp only
        refine ⟨ha, ?_⟩
        intro e he
        obtain ⟨p, hp, w, x, hs, ho⟩ := consensus_result fmt cfg.float raw _ e he
        exact .inr (.inr ⟨rfl, by simpa using hint, ha, p.1, p.2, w, x, hp, hs, ho⟩)

theorem after_keeps (cfg : GtpCfg τ) {gc0 : GC σ} (o : Bool) (c : Colour) (m : Option Pt) (b : Board) (env : GEnv σ τ) (h : GCOK lv o gc0 env.gc)
    (hm : ∀ p, m = some p → OnBoard cfg.boardSize p) (hb : BoardInv cfg.boardSize b) :
    Post (fun env => GCOK lv o gc0 env.gc) (GErr lv cfg gc0 o) (fun _ : Unit => True) (afterMove cfg c m b env) := by
  unfold afterMove
  cases hx : cfg.callback c m b env.user with
  | mk x u =>
    cases x with
    | ok _ => exact ⟨h, trivial⟩
    | error k => exact .inr (.inl ⟨k, c, m, b, env.user, rfl, by rw [hx], ⟨hm, hb⟩, h⟩)

/-- The backend for GTP keeps the invariant. -/
theorem gtp_keeps (C : Colour → Channel σ) (cfg : GtpCfg τ) (gc0 : GC σ) (fmt : Rat → Str) (hn : cfg.boardSize ≤ 25) :
    Keeps (gtpBackend C cfg) cfg.boardSize fmt (fun o env => GCOK lv o gc0 env.gc) (GErr lv cfg gc0) where
  endGame := by
    intro env h
    refine ⟨_, rfl, rfl, ?_, h.code, h.late⟩
    intro c
    obtain ⟨h1, h2, h3, h4⟩ := h.ctl c
    exact ⟨h1, h2, (fun x => nomatch x), h4⟩
  getMove := fun c env h => getMove_keeps C cfg c env h
  comment := fun o c env h => comment_keeps C cfg o c env h
  notifyMove := fun o c m env h hm => notify_keeps C cfg hn o c m env h hm
  scoreGame := fun b env h => score_keeps C cfg fmt b env h
  afterMove := fun o c m b env h hm hb => after_keeps cfg o c m b env h hm hb

end Gomill.Gtp
