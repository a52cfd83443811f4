import Verif.Lemmas.GtpTexts
import Verif.Lemmas.Text
/-
What never changes in a game played by a job, and the texts in it.
-/
namespace Gomill
variable {σ : Type}

theorem prepare_noResult {B : Backend σ} {r r' : Runner σ} {x : Except GExc Unit} (h : r.prepare B = (x, r')) : r'.result = r.result := by
  have hc : ∀ {α : Type} {r r1 : Runner σ} {f : σ → Except GExc α × σ} {x : Except GExc α}, r.call f = (x, r1) → r1.result = r.result := by
    intro α r r1 f x h
    rw [show r1 = (r.call f).2 from (congrArg Prod.snd h).symm]
    rfl
  unfold Runner.prepare at h
  split at h
  · cases h; rfl
  · split at h <;> (rename_i he; have := hc he; cases h; exact this)

theorem setHandicap_noResult {B : Backend σ} {r r' : Runner σ} {x : Except GExc Unit} {k : Int} {free : Bool} (h : r.setHandicap B k free = (x, r')) : r'.result = r.result := by
  have hc : ∀ {α : Type} {r r1 : Runner σ} {f : σ → Except GExc α × σ} {x : Except GExc α}, r.call f = (x, r1) → r1.result = r.result := by
    intro α r r1 f x h
    rw [show r1 = (r.call f).2 from (congrArg Prod.snd h).symm]
    rfl
  unfold Runner.setHandicap Runner.finishHandicap at h
  split at h
  · cases h; rfl
  · split at h
    · split at h
      · cases h; rfl
      · split at h
        · rename_i he; have := hc he; cases h; exact this
        · rename_i he
          have h1 := hc he
          split at h <;> (rename_i he'; have h2 := hc he'; cases h; exact h2.trans h1)
    · split at h
      · cases h; rfl
      · split at h
        · rename_i he; have := hc he; cases h; exact this
        · rename_i he
          have h1 := hc he
          split at h <;> (rename_i he'; have h2 := hc he'; cases h; exact h2.trans h1)

end Gomill

namespace Gomill.Gtp
open Py
variable {σ δ : Type} {T : Str → Prop} {f : Fixed}

/-- A result for these players; `res` is Game_runner's. -/
structure Counted (code : Colour → Str) (gameId : Option Str) (res : Res) (r : GameResult) : Prop where
  players : r.players = (code .b, code .w)
  black : r.playerB = code .b
  white : r.playerW = code .w
  gameId : r.gameId = gameId
  same : r.res = (GameResult.setPlayers res (code .b) (code .w)).res
  winner : r.winningPlayer = (GameResult.setPlayers res (code .b) (code .w)).winningPlayer
  time : ∀ c, r.cpuTimes.lookup (code c) = some .none ∨ ∃ q, r.cpuTimes.lookup (code c) = some (.secs q)

theorem assocSet_lookup (l : List (Str × CpuTime)) (k : Str) (v : CpuTime) (k' : Str) :
    (assocSet l k v).lookup k' = if k' = k then (l.lookup k).map (fun _ => v) else l.lookup k' := by
  unfold assocSet
  induction l with
  | nil => by_cases h : k' = k <;> simp [h]
  | cons x l ih =>
    obtain ⟨a, b⟩ := x
    by_cases ha : a = k
    · subst ha
      simp only [List.map_cons, if_true, List.lookup_cons]
      by_cases hk : k' = a
      · subst hk; simp
      · have h1 : (k' == a) = false := by simpa using hk
        rw [h1, if_neg hk]
        rw [if_neg hk] at ih
        exact ih
    · simp only [List.map_cons, ha, if_false, List.lookup_cons]
      by_cases hk : k' = a
      · subst hk; simp [ha]
      · have h1 : (k' == a) = false := by simpa using hk
        have h2 : (k == a) = false := by simpa using fun h : k = a => ha h.symm
        rw [h1, h2]
        exact ih

/-- Updating a CPU time. -/
theorem Counted.update {code : Colour → Str} {gameId : Option Str} {res : Res} {r : GameResult} (h : Counted code gameId res r) (c : Colour) (q : Rat) :
    Counted code gameId res (r.softUpdate1 c (.secs q)) ∧
    (r.softUpdate1 c (.secs q)).cpuTimes.lookup (code c) = some (if r.cpuTimes.lookup (code c) = some .none then .secs q else (r.cpuTimes.lookup (code c)).getD .none) ∧
    (∀ k, k ≠ code c → (r.softUpdate1 c (.secs q)).cpuTimes.lookup k = r.cpuTimes.lookup k) := by
  have hk : r.softUpdate1 c (.secs q) = match r.cpuTimes.lookup (code c) with
      | some .none => { r with cpuTimes := assocSet r.cpuTimes (code c) (.secs q) }
      | _ => r := by
    unfold GameResult.softUpdate1
    cases c <;> simp only [h.players] <;> rfl
  rw [hk]
  rcases h.time c with ht | ⟨q', ht⟩
  · simp only [ht]
    refine ⟨⟨h.players, h.black, h.white, h.gameId, h.same, h.winner, ?_⟩, ?_, ?_⟩
    · intro d
      show (assocSet r.cpuTimes (code c) (.secs q)).lookup (code d) = _ ∨ _
      rw [assocSet_lookup]
      split
      · exact .inr ⟨q, by rw [ht]; rfl⟩
      · exact h.time d
    · rw [assocSet_lookup, if_pos rfl, ht, if_pos trivial]; rfl
    · intro k hk
      rw [assocSet_lookup, if_neg hk]
  · rw [ht]
    simp only
    exact ⟨h, by simp [ht], fun _ _ => trivial⟩

theorem counted_new (code : Colour → Str) (gameId : Option Str) (res : Res) :
    Counted code gameId res { GameResult.setPlayers res (code .b) (code .w) with gameId := gameId } := by
  refine ⟨rfl, rfl, rfl, rfl, rfl, rfl, fun c => .inl ?_⟩
  show (GameResult.setPlayers res (code .b) (code .w)).cpuTimes.lookup (code c) = _
  unfold GameResult.setPlayers
  simp only
  by_cases h : code .b = code .w
  · simp only [if_pos h]
    cases c
    · simp
    · simp [h]
  · simp only [if_neg h]
    cases c
    · simp
    · have : (code .w == code .b) = false := by simpa using fun h' : code .w = code .b => h h'.symm
      simp [List.lookup, this]

/-- After playing a job's game: what hasn't changed, and the result. -/
theorem playGame_texts (W : JobWorld σ) (job : GameJob δ) (hT : TextClass T) (hC : TextChannel T W.channel) (hf : FixedT T f) (hk : T (W.strFloat job.komi)) {fuel : Nat}
    {g g' : GtpGame σ Unit} {x : Except Stop Unit} (h0 : EnvT T f g.runner.env) (hres : g.runner.result = none) (hres' : g.result = none) (h : playGame W job fuel g = some (x, g')) :
    EnvT T f g'.runner.env ∧ g'.gameId = g.gameId ∧ 
    (x = .ok () → ∃ rr errors r, g'.runner.result = some rr ∧ DetailOK T (some rr) ∧ g'.result = some r ∧ g'.cpuTimeErrors = some errors ∧ Counted f.code g.gameId rr r) := by
  have hB := gtpBackend_texts hT (fun _ => hC) hf (jobCfg W job) hk
  unfold playGame at h
  cases hp : g.prepare (fun _ => W.channel) (jobCfg W job) with
  | mk y g1 =>
    rw [hp] at h
    have a1 : EnvT T f g1.runner.env ∧ g1.runner.result = none ∧ g1.gameId = g.gameId ∧ g1.result = none := by
      unfold GtpGame.prepare at hp
      cases hq : g.runner.prepare (gtpBackend (fun _ => W.channel) (jobCfg W job)) with
      | mk z r1 =>
        rw [hq] at hp
        cases hp
        exact ⟨prepare_texts hB hq h0, (prepare_noResult hq).trans hres, rfl, hres'⟩
    cases y with
    | error e => cases h; exact ⟨a1.1, a1.2.2.1, (fun h => nomatch h)⟩
    | ok u =>
      simp only at h
      have key : ∀ (hh : Except Stop Unit × GtpGame σ Unit), 
          (EnvT T f hh.2.runner.env ∧ hh.2.runner.result = none ∧ hh.2.gameId = g.gameId ∧ hh.2.result = none) →
          (match hh with
            | (.error e, g) => some (.error e, g)
            | (.ok (), g) => match g.run (fun _ => W.channel) (jobCfg W job) W.strFloat fuel with
              | none => none
              | some (.error e, g, _) => some (.error (e.toStop W.excText), g)
              | some (.ok (), g, _) => some (.ok (), g)) = some (x, g') → 
          EnvT T f g'.runner.env ∧ g'.gameId = g.gameId ∧ 
          (x = .ok () → ∃ rr errors r, g'.runner.result = some rr ∧ DetailOK T (some rr) ∧ g'.result = some r ∧ g'.cpuTimeErrors = some errors ∧ Counted f.code g.gameId rr r) := by
        intro hh ha hx
        obtain ⟨y, g2⟩ := hh
        cases y with
        | error e => cases hx; exact ⟨ha.1, ha.2.2.1, (fun h => nomatch h)⟩
        | ok u =>
          simp only at hx ha
          unfold GtpGame.run at hx
          cases hr : g2.runner.run (gtpBackend (fun _ => W.channel) (jobCfg W job)) W.strFloat fuel with
          | none => rw [hr] at hx; cases hx
          | some z =>
            obtain ⟨rx, r3, game⟩ := z
            obtain ⟨b1, b2⟩ := run_texts hB (ownTexts hT) W.strFloat ha.2.1 ha.1 hr
            simp only [hr] at hx
            cases rx with
            | error e => cases hx; exact ⟨b1, ha.2.2.1, (fun h => by cases e with | backend n => unfold GExc.toStop at h; split at h <;> cases h | _ => cases h)⟩
            | ok u =>
              simp only at hx
              cases hrr : r3.result with
              | none => simp only [hrr] at hx; cases hx; exact ⟨b1, ha.2.2.1, (fun h => nomatch h)⟩
              | some rr =>
                simp only [hrr] at hx
                have hfin : ∀ (z : Except GExc Unit) (g4 : GtpGame σ Unit), GtpGame.finish (fun _ => W.channel) (jobCfg W job) { g2 with runner := r3 } rr = (z, g4) →
                    EnvT T f g4.runner.env ∧ g4.gameId = g2.gameId ∧ g4.runner.result = some rr ∧
                    (z = .ok () → ∃ errors r, g4.result = some r ∧ g4.cpuTimeErrors = some errors ∧ Counted f.code g2.gameId rr r) := by
                  intro z g4 hz
                  unfold GtpGame.finish at hz
                  simp only at hz
                  have hgc := cpuTimes_T hT (fun _ => hC) hf b1.gc (jobCfg W job).cpuFloat
                  cases hcp : r3.env.gc.cpuTimes (fun _ => W.channel) (jobCfg W job).cpuFloat with
                  | mk v gc' =>
                    rw [hcp] at hgc hz
                    cases v with
                    | error e => cases hz; exact ⟨⟨hgc, b1.scores⟩, rfl, hrr, (fun h => nomatch h)⟩
                    | ok v =>
                      obtain ⟨times, errors⟩ := v
                      simp only at hz
                      injection hz with hz1 hz2
                      subst hz2
                      refine ⟨⟨hgc, b1.scores⟩, rfl, hrr, fun _ => ⟨errors, _, rfl, rfl, ?_⟩⟩
                      have hcode : r3.env.gc.code = f.code := b1.gc.code
                      rw [hcode]
                      have c0 := counted_new f.code g2.gameId rr
                      have step : ∀ {r : GameResult} (c : Colour), Counted f.code g2.gameId rr r → Counted f.code g2.gameId rr
                          (match times c with | some q => r.softUpdate1 c (.secs q) | none => r) := by
                        intro r c hr
                        split
                        · exact (hr.update c _).1
                        · exact hr
                      exact step .w (step .b c0)
                cases hz : GtpGame.finish (fun _ => W.channel) (jobCfg W job) { g2 with runner := r3 } rr with
                | mk z g4 =>
                  obtain ⟨d1, d2, d3, d4⟩ := hfin z g4 hz
                  rw [hz] at hx
                  cases z with
                  | error e => 
                    simp only at hx
                    injection hx with hx; injection hx with hx1 hx2; subst hx1; subst hx2; exact ⟨d1, d2.trans ha.2.2.1, (fun h => nomatch h)⟩
                  | ok u =>
                    simp only at hx
                    injection hx with hx; injection hx with hx1 hx2; subst hx1; subst hx2
                    obtain ⟨errors, r, e1, e2, e3⟩ := d4 rfl
                    rw [ha.2.2.1] at e3
                    exact ⟨d1, d2.trans ha.2.2.1, fun _ => ⟨rr, errors, r, d3, hrr ▸ b2, e1, e2, e3⟩⟩
      refine key _ ?_ h
      cases hh : job.handicap with
      | none => exact a1
      | some k =>
        simp only
        split
        · exact a1
        · cases hs : g1.setHandicap (fun _ => W.channel) (jobCfg W job) k job.handicapIsFree with
          | mk y g2 =>
            have a2 : EnvT T f g2.runner.env ∧ g2.runner.result = none ∧ g2.gameId = g.gameId ∧ g2.result = none := by
              unfold GtpGame.setHandicap at hs
              cases hq : ({ g1.runner with env := { g1.runner.env with handicap := some k } } : Runner (GEnv σ Unit)).setHandicap (gtpBackend (fun _ => W.channel) (jobCfg W job)) k job.handicapIsFree with
              | mk z r1 =>
                rw [hq] at hs
                cases hs
                exact ⟨setHandicap_texts hB hq ⟨a1.1.gc, a1.1.scores⟩, (setHandicap_noResult hq).trans a1.2.1, a1.2.2.1, a1.2.2.2⟩
            split <;> (rename_i he; cases he; exact a2)

/-- All texts. -/
theorem allTexts : TextClass (fun _ => True) := ⟨fun _ _ _ _ => trivial, fun _ _ => trivial⟩

theorem allChannel (C : Channel σ) : TextChannel (fun _ => True) C := ⟨fun _ _ _ _ _ => trivial, fun _ _ _ => trivial, fun _ _ _ _ => trivial, fun _ _ _ => trivial⟩

end Gomill.Gtp
