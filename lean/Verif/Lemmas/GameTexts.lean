import Verif.Props.GameRunner
/-
An invariant of the backend's state which holds whatever happens, and the texts of results of games.
-/
namespace Gomill
open Py Go

variable {σ : Type}

/-- The backend keeps `J`, whatever happens, and all reasons for forfeits it provides satisfy `T`. -/
structure Texts (B : Backend σ) (J : σ → Prop) (T : Str → Prop) : Prop where
  start : ∀ n k env, J env → J (B.startNewGame n k env).2
  endGame : ∀ env, J env → J (B.endGame env).2
  getFree : ∀ k env, J env → J (B.getFreeHandicap k env).2
  notifyFree : ∀ l env, J env → J (B.notifyFreeHandicap l env).2
  notifyFixed : ∀ c k l env, J env → J (B.notifyFixedHandicap c k l env).2
  getMove : ∀ c env, J env → J (B.getMove c env).2 ∧ ∀ s, (B.getMove c env).1 = .ok (.forfeit s) → T s
  notifyMove : ∀ c m env, J env → J (B.notifyMove c m env).2 ∧ ∀ st s, (B.notifyMove c m env).1 = .ok (st, some s) → T s
  scoreGame : ∀ b env, J env → J (B.scoreGame b env).2
  comment : ∀ c env, J env → J (B.getLastMoveComment c env).2
  afterMove : ∀ c m b env, J env → J (B.afterMove c m b env).2

/-- The texts which are not from the backend. -/
structure OwnTexts (T : Str → Prop) : Prop where
  ko : ∀ p v, formatVertex (some p) = .ok v → T ("attempted move to ko-forbidden point ".toList ++ v)
  occupied : ∀ p v, formatVertex (some p) = .ok v → T ("attempted move to occupied point ".toList ++ v)
  limit : T "hit move limit".toList
  claim : T "claim".toList
  disagreed : T "players disagreed".toList
  noScore : T "no score reported".toList
  noMargin : T "unknown margin".toList

variable {B : Backend σ} {J : σ → Prop} {T : Str → Prop}

/-- During a run. -/
structure RT (J : σ → Prop) (T : Str → Prop) (s : Run σ) : Prop where
  env : J s.r.env
  reason : ∀ x, s.game.forfeitReason = some x → T x

theorem RT.andThen {α β : Type} {x : Except GExc α × Run σ} {k : α → Run σ → Except GExc β × Run σ} (hx : RT J T x.2)
    (hk : ∀ a, x.1 = .ok a → RT J T (k a x.2).2) : RT J T (andThen x k).2 := by
  obtain ⟨y | y, s⟩ := x
  · exact hx
  · exact hk y rfl

theorem RT.call {α : Type} {s : Run σ} (h : RT J T s) {f : σ → Except GExc α × σ} (hf : J (f s.r.env).2) : RT J T (s.call f).2 := ⟨hf, h.reason⟩

theorem RT.diag {s : Run σ} (h : RT J T s) (c : Colour) (m : Option Str) : RT J T (s.setFinalDiagnostics c m) := by
  unfold Run.setFinalDiagnostics
  cases m with
  | none => exact h
  | some t => exact ⟨h.env, h.reason⟩

theorem RT.record (hB : Texts B J T) {s : Run σ} (h : RT J T s) {f : Game → Except GExc Unit × Game}
    (hf : ∀ x, (f s.game).2.forfeitReason = some x → T x) : RT J T (s.record B f).2 := by
  unfold Run.record
  simp only
  split
  · exact ⟨h.env, hf⟩
  · split
    · exact ⟨h.env, hf⟩
    · exact RT.call (s := { s with game := (f s.game).2 }) ⟨h.env, hf⟩ (hB.endGame _ h.env)

theorem reason_forfeit {g : Game} (h : ∀ x, g.forfeitReason = some x → T x) (c : Colour) (r : Option Str) (hr : ∀ x, r = some x → T x) :
    ∀ x, (g.recordForfeitBy c r).2.forfeitReason = some x → T x := by
  unfold Game.recordForfeitBy
  split
  · exact h
  · exact hr

theorem reason_move (hT : OwnTexts T) {g : Game} (h : ∀ x, g.forfeitReason = some x → T x) (c : Colour) (m : Option Pt) :
    ∀ x, (g.recordMove c m).2.forfeitReason = some x → T x := by
  have fin : ∀ (g : Game), (∀ x, g.forfeitReason = some x → T x) → ∀ x, (g.finishMove c).forfeitReason = some x → T x := by
    intro g h
    unfold Game.finishMove
    simp only
    split
    · exact h
    · split
      · exact h
      · split <;> exact h
  have ill : ∀ (g : Game) p what, (∀ x, g.forfeitReason = some x → T x) → (∀ v, formatVertex (some p) = .ok v → T (what.toList ++ v)) →
      ∀ x, (g.forfeitIllegal c p what).2.forfeitReason = some x → T x := by
    intro g p what h hw
    unfold Game.forfeitIllegal
    split
    · exact h
    · rename_i v hv
      exact reason_forfeit h c _ (by rintro x ⟨⟩; exact hw v hv)
  unfold Game.recordMove
  split
  · exact h
  · split
    · exact h
    · split
      · rename_i p
        simp only
        split
        · exact ill _ p _ h (hT.ko p)
        · split
          · exact ill _ p _ h (hT.occupied p)
          · exact h
          · exact fin _ h
      · exact fin _ h

theorem endedByPlayer_rt (hB : Texts B J T) {s : Run σ} (h : RT J T s) (c : Colour) : RT J T (endedByPlayer B c s).2 := by
  unfold endedByPlayer
  exact RT.andThen (h.call (hB.comment _ _ h.env)) (fun a _ => (h.call (hB.comment _ _ h.env)).diag c a)

theorem playMove_rt (hB : Texts B J T) (hT : OwnTexts T) {s : Run σ} (h : RT J T s) (c : Colour) (m : Option Pt) : RT J T (playMove B c m s).2 := by
  unfold playMove
  have h1 := h.record hB (f := fun g => g.recordMove c m) (reason_move hT h.reason c m)
  refine RT.andThen h1 ?_
  intro _ _
  generalize (s.record B (fun g => g.recordMove c m)).2 = s1 at h1 ⊢
  have h2 := h1.call (hB.comment c _ h1.env)
  refine RT.andThen h2 ?_
  intro cm hcm
  generalize (s1.call (B.getLastMoveComment c)).2 = s2 at h2 ⊢
  split
  · exact h2.diag c cm
  · have hn := hB.notifyMove c.opponent m s2.r.env h2.env
    have h3 := h2.call hn.1
    refine RT.andThen h3 ?_
    intro sm hsm
    have hsm' : ∀ x, sm.2 = some x → T x := fun x hx => hn.2 sm.1 x (by rw [← hx]; exact hsm)
    generalize (s2.call (B.notifyMove c.opponent m)).2 = s3 at h3 ⊢
    split
    · exact h3
    · split
      · have h4 := h3.record hB (f := fun g => g.recordForfeitBy (if sm.1 = .reject then c else c.opponent) sm.2) (reason_forfeit h3.reason (if sm.1 = .reject then c else c.opponent) sm.2 hsm')
        refine RT.andThen h4 ?_
        intro _ _
        exact h4.diag c cm
      · exact RT.call (s := { s3 with r := { s3.r with moves := s3.r.moves ++ [(c, m, cm)] } }) ⟨h3.env, h3.reason⟩ (hB.afterMove _ _ _ _ h3.env)

theorem doMove_rt (hB : Texts B J T) (hT : OwnTexts T) {s : Run σ} (h : RT J T s) : RT J T (doMove B s).2 := by
  unfold doMove
  split
  · exact h
  · rename_i c _
    have hm := hB.getMove c s.r.env h.env
    have h1 := h.call hm.1
    refine RT.andThen h1 ?_
    intro act hact
    have ended : ∀ f : Game → Except GExc Unit × Game, (∀ x, (f (s.call (B.getMove c)).2.game).2.forfeitReason = some x → T x) →
        RT J T (andThen ((s.call (B.getMove c)).2.record B f) fun _ s => endedByPlayer B c s).2 := by
      intro f hf
      have h2 := h1.record hB hf
      exact RT.andThen h2 (fun _ _ => endedByPlayer_rt hB h2 c)
    cases act with
    | move m => exact playMove_rt hB hT h1 c m
    | forfeit msg => exact ended _ (reason_forfeit h1.reason c _ (by rintro x ⟨⟩; exact hm.2 _ hact))
    | resign =>
      refine ended _ ?_
      unfold Game.recordResignationBy
      split <;> exact h1.reason
    | claim =>
      refine ended _ ?_
      unfold Game.recordClaimBy
      split <;> exact h1.reason
    | bad => exact h1

theorem runLoop_rt (hB : Texts B J T) (hT : OwnTexts T) : ∀ (fuel : Nat) {s : Run σ} {x : Except GExc Unit × Run σ},
    RT J T s → runLoop B fuel s = some x → RT J T x.2 := by
  intro fuel
  induction fuel with
  | zero =>
    intro s x h hx
    rw [runLoop] at hx
    split at hx
    · cases hx; exact h
    · cases hx
  | succ fuel ih =>
    intro s x h hx
    rw [runLoop] at hx
    split at hx
    · cases hx; exact h
    · have := doMove_rt hB hT h
      rcases hd : doMove B s with ⟨y | y, s'⟩
      · rw [hd] at hx this
        cases hx
        exact this
      · rw [hd] at hx this
        exact ih this hx

/-- The detail of a result. -/
def DetailOK (T : Str → Prop) (r : Option Res) : Prop := ∀ res d, r = some res → res.detail = some d → T d

theorem detail_score (hT : OwnTexts T) (fmt : Rat → Str) (s : GameScore) {res : Res} (h : Res.fromGameScore fmt s = .ok res) : DetailOK T (some res) := by
  have hd : ∀ d, s.getDetail = some d → T d := by
    intro d h
    unfold GameScore.getDetail at h
    split at h
    · cases h; exact hT.disagreed
    · split at h
      · split at h <;> cases h
        · exact hT.noScore
        · exact hT.noMargin
      · cases h
  rintro _ d ⟨⟩ hx
  unfold Res.fromGameScore Res.fromScore at h
  simp only at h
  split at h
  · cases h; exact hd d hx
  · split at h
    · cases h
    · split at h
      · split at h
        · cases h; exact hd d hx
        · cases h
      · split at h
        · cases h
        · split at h
          · cases h
          · cases h; exact hd d hx

theorem detail_unscored (hT : OwnTexts T) {g : Game} (hg : ∀ x, g.forfeitReason = some x → T x) {res : Res} (h : Res.fromUnscoredGame g = .ok res) : DetailOK T (some res) := by
  rintro _ d ⟨⟩ hx
  unfold Res.fromUnscoredGame at h
  split at h
  · cases h
  · split at h
    · cases h
    · simp only at h
      split at h
      · cases h; cases hx; exact hT.limit
      · split at h
        · cases h; cases hx
        · split at h
          · cases h; cases hx; exact hT.claim
          · split at h
            · cases h; exact hg d hx
            · cases h

/-- After a run: the invariant, and the detail of the result. -/
theorem run_texts (hB : Texts B J T) (hT : OwnTexts T) (fmt : Rat → Str) {r r' : Runner σ} (hr : r.result = none) (hj : J r.env) {fuel : Nat}
    {res : Except GExc Unit} {game : Option Game} (h : r.run B fmt fuel = some (res, r', game)) : J r'.env ∧ DetailOK T r'.result := by
  have h0 : DetailOK T r.result := by rw [hr]; exact fun _ _ h => nomatch h
  unfold Runner.run at h
  split at h
  · cases h; exact ⟨hj, h0⟩
  · rcases hg : r.makeGame with x | g
    · rw [hg] at h; cases h; exact ⟨hj, h0⟩
    · rw [hg] at h
      simp only at h
      have hgr : g.forfeitReason = none := by
        unfold Runner.makeGame at hg
        split at hg
        · cases hg
        · split at hg
          · cases hg; rfl
          · cases hg; rfl
          · split at hg
            · cases hg
            · cases hg; rfl
      rcases hl : runLoop B fuel ⟨{ r with state := 3 }, g⟩ with _ | x
      · rw [hl] at h; cases h
      · rw [hl] at h
        have h1 : RT J T x.2 := runLoop_rt hB hT fuel (s := ⟨{ r with state := 3 }, g⟩) ⟨hj, by rw [hgr]; exact fun _ h => nomatch h⟩ hl
        have h2 : x.2.r.result = none := by
          have := runLoop_result B fuel (s := ⟨{ r with state := 3 }, g⟩) hl
          exact this.trans hr
        simp only [Option.some.injEq, Prod.mk.injEq] at h
        rw [← h.2.1]
        obtain ⟨y | y, s⟩ := x
        · exact ⟨h1.env, by show DetailOK T s.r.result; rw [h2]; exact fun _ _ h => nomatch h⟩
        · show J (setResult B fmt s).2.r.env ∧ DetailOK T (setResult B fmt s).2.r.result
          have hn : DetailOK T s.r.result := by rw [h2]; exact fun _ _ h => nomatch h
          unfold setResult
          split
          · have hs := hB.scoreGame s.game.board s.r.env h1.env
            unfold Run.call andThen
            cases hx : B.scoreGame s.game.board s.r.env with
            | mk z env =>
              rw [hx] at hs
              cases z with
              | error e => exact ⟨hs, hn⟩
              | ok sc =>
                simp only
                split
                · exact ⟨hs, hn⟩
                · rename_i res hres
                  exact ⟨hs, detail_score hT fmt sc hres⟩
          · split
            · exact ⟨h1.env, hn⟩
            · rename_i res hres
              exact ⟨h1.env, detail_unscored hT h1.reason hres⟩
where
  runLoop_result (B : Backend σ) : ∀ (fuel : Nat) {s : Run σ} {x : Except GExc Unit × Run σ}, runLoop B fuel s = some x → x.2.r.result = s.r.result := by
    intro fuel
    induction fuel with
    | zero =>
      intro s x hx
      rw [runLoop] at hx
      split at hx
      · cases hx; rfl
      · cases hx
    | succ fuel ih =>
      intro s x hx
      rw [runLoop] at hx
      split at hx
      · cases hx; rfl
      · have := doMove_result B s
        rcases hd : doMove B s with ⟨y | y, s'⟩
        · rw [hd] at hx this
          cases hx
          exact this
        · rw [hd] at hx this
          exact (ih hx).trans this
  doMove_result (B : Backend σ) (s : Run σ) : (doMove B s).2.r.result = s.r.result := by
    have hthen : ∀ {α β : Type} (x : Except GExc α × Run σ) (k : α → Run σ → Except GExc β × Run σ), x.2.r.result = s.r.result →
        (∀ a t, t.r.result = s.r.result → (k a t).2.r.result = s.r.result) → (andThen x k).2.r.result = s.r.result := by
      intro α β x k hx hk
      obtain ⟨y | y, t⟩ := x
      · exact hx
      · exact hk y t hx
    have hcall : ∀ {α : Type} (t : Run σ) (f : σ → Except GExc α × σ), t.r.result = s.r.result → (t.call f).2.r.result = s.r.result := fun _ _ h => h
    have hrec : ∀ (t : Run σ) (f : Game → Except GExc Unit × Game), t.r.result = s.r.result → (t.record B f).2.r.result = s.r.result := by
      intro t f h
      obtain ⟨_, ⟨env, he⟩, _⟩ := record_spec B t f
      rw [he]; exact h
    have hdiag : ∀ (t : Run σ) (c : Colour) (m : Option Str), t.r.result = s.r.result → (t.setFinalDiagnostics c m).r.result = s.r.result := by
      intro t c m h
      rw [(diag_spec t c m).2.2.1]; exact h
    have hend : ∀ (t : Run σ) (c : Colour), t.r.result = s.r.result → (endedByPlayer B c t).2.r.result = s.r.result := by
      intro t c h
      unfold endedByPlayer
      exact hthen _ _ (hcall _ _ h) (fun a t h => hdiag _ _ _ h)
    have hplay : ∀ (t : Run σ) (c : Colour) (m : Option Pt), t.r.result = s.r.result → (playMove B c m t).2.r.result = s.r.result := by
      intro t c m h
      unfold playMove
      refine hthen _ _ (hrec _ _ h) (fun _ t h => hthen _ _ (hcall _ _ h) (fun cm t h => ?_))
      split
      · exact hdiag _ _ _ h
      · refine hthen _ _ (hcall _ _ h) (fun sm t h => ?_)
        split
        · exact h
        · split
          · exact hthen _ _ (hrec _ _ h) (fun _ t h => hdiag _ _ _ h)
          · exact h
    unfold doMove
    split
    · rfl
    · refine hthen _ _ (hcall _ _ rfl) (fun act t h => ?_)
      cases act with
      | move m => exact hplay _ _ _ h
      | forfeit msg => exact hthen _ _ (hrec _ _ h) (fun _ t h => hend _ _ h)
      | resign => exact hthen _ _ (hrec _ _ h) (fun _ t h => hend _ _ h)
      | claim => exact hthen _ _ (hrec _ _ h) (fun _ t h => hend _ _ h)
      | bad => exact h

theorem call_env {α : Type} {r r1 : Runner σ} {f : σ → Except GExc α × σ} {x : Except GExc α} (h : r.call f = (x, r1)) : r1.env = (f r.env).2 := by
  rw [show r1 = (r.call f).2 from (congrArg Prod.snd h).symm]
  rfl

/-- Preparing keeps the invariant. -/
theorem prepare_texts (hB : Texts B J T) {r r' : Runner σ} {x : Except GExc Unit} (h : r.prepare B = (x, r')) (hj : J r.env) : J r'.env := by
  unfold Runner.prepare at h
  split at h
  · cases h; exact hj
  · have := hB.start r.boardSize r.komi r.env hj
    split at h <;> (rename_i he; cases h; show J (Runner.env _); first | exact (call_env he) ▸ this | (show J (Runner.env _); rw [call_env he]; exact this))

/-- So does setting the handicap. -/
theorem setHandicap_texts (hB : Texts B J T) {r r' : Runner σ} {x : Except GExc Unit} {k : Int} {free : Bool} (h : r.setHandicap B k free = (x, r')) (hj : J r.env) : J r'.env := by
  unfold Runner.setHandicap Runner.finishHandicap at h
  split at h
  · cases h; exact hj
  · split at h
    · split at h
      · cases h; exact hj
      · have h1 := hB.getFree k r.env hj
        split at h
        · rename_i he; cases h; rw [call_env he]; exact h1
        · rename_i points r1 he
          have h2 := hB.notifyFree points r1.env (by rw [call_env he]; exact h1)
          split at h
          · rename_i he'; cases h; rw [call_env he']; exact h2
          · rename_i he'; cases h; show J (Runner.env _); rw [call_env he']; exact h2
    · split at h
      · cases h; exact hj
      · rename_i points _
        have h1 := hB.notifyFixed .b k points r.env hj
        split at h
        · rename_i he; cases h; rw [call_env he]; exact h1
        · rename_i r1 he
          have h2 := hB.notifyFixed .w k points r1.env (by rw [call_env he]; exact h1)
          split at h
          · rename_i he'; cases h; rw [call_env he']; exact h2
          · rename_i he'; cases h; show J (Runner.env _); rw [call_env he']; exact h2

end Gomill
