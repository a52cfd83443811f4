import Verif.Lemmas.GtpTranscript
import Verif.Props.GtpGame
/-
C63: the commands a Gtp_game sends to its engines, and how it interprets their replies.
-/
namespace Gomill.Gtp
open Py Go

variable {σ τ : Type}

theorem moveWord_format {n : Nat} (hn : n ≤ 25) {m : Option Pt} (hm : ∀ p, m = some p → OnBoard n p) : formatVertex m = .ok (moveWord m) := by
  cases m with
  | none => rfl
  | some p =>
    obtain ⟨s, h1, ⟨c, h2, h3⟩, _⟩ := C13_vertex_round_trip n hn p (hm p rfl)
    rw [h1, h3]
    simp only [moveWord]
    rw [show "ABCDEFGHJKLMNOPQRSTUVWXYZ".toList = columnLetters from rfl, List.getD_eq_getElem?_getD, h2]
    rfl

theorem renamed_append (al : List (Str × Str)) (a b : List GtpCommand) : renamed al (a ++ b) = renamed al a ++ renamed al b := by
  unfold renamed; exact List.map_append

/-- The player hasn't been asked for a move. -/
def NeverAsked (c : Colour) : Phase → Prop
  | .told h => ∀ m ∈ h, m.1 ≠ c
  | .asked h d _ => (∀ m ∈ h, m.1 ≠ c) ∧ d ≠ c

theorem heard_told (ex : Bool) (c : Colour) (h : List Mv) : heard ex c (.told h) = h.map (moveCommand ex c) := rfl

theorem heard_own (ex : Bool) (c : Colour) (h : List Mv) (m : Option (Option Pt)) :
    heard ex c (.asked h c m) = h.map (moveCommand ex c) ++ [askCommand ex c] := by simp [heard]

theorem heard_other (ex : Bool) {c d : Colour} (hd : d ≠ c) (h : List Mv) (m : Option (Option Pt)) :
    heard ex c (.asked h d m) = h.map (moveCommand ex c) := by simp [heard, hd]

theorem heard_never {c : Colour} {ph : Phase} (h : NeverAsked c ph) (ex ex' : Bool) : heard ex c ph = heard ex' c ph := by
  have key : ∀ l : List Mv, (∀ m ∈ l, m.1 ≠ c) → l.map (moveCommand ex c) = l.map (moveCommand ex' c) := by
    intro l hl
    refine List.map_congr_left fun m hm => ?_
    unfold moveCommand
    rw [if_neg (hl m hm), if_neg (hl m hm)]
  cases ph with
  | told l => exact key l h
  | asked l d m =>
    rw [heard_other _ h.2, heard_other _ h.2, key l h.1]

/-- What has been sent so far: the flag says whether the game is over. -/
def Transcript (al : Colour → List (Str × Str)) (pre : Colour → List GtpCommand) (cfg : GtpCfg τ) (o : Bool) (ph : Phase) (env : GEnv (σ × List Event) τ) : Prop :=
  ∃ (ex : Colour → Bool) (kn : Colour → Option Bool), GCAt o al (fun c => pre c ++ renamed (al c) (heard (ex c) c ph)) kn env.gc ∧
    ∀ c, (cfg.claimAllowed c = false → ex c = false) ∧ (cfg.claimAllowed c = true → kn c = some (ex c) ∨ kn c = none ∧ NeverAsked c ph)

variable {al : Colour → List (Str × Str)} {pre : Colour → List GtpCommand} {cfg : GtpCfg τ} {o : Bool}

/-- A change in the backend which sends no game command. -/
theorem Transcript.keep {ph : Phase} {env env' : GEnv (σ × List Event) τ} (h : Transcript al pre cfg o ph env)
    (hk : ∀ S kn, GCAt o al S kn env.gc → GCAt o al S kn env'.gc) : Transcript al pre cfg o ph env' := by
  obtain ⟨ex, kn, h1, h2⟩ := h
  exact ⟨ex, kn, hk _ _ h1, h2⟩

theorem opp_ne (c : Colour) : c.opponent ≠ c := by cases c <;> exact fun h => nomatch h

theorem ask_words (ex : Bool) (c : Colour) : (askCommand ex c).1 ∈ gameNames ∧ ∀ a ∈ (askCommand ex c).2, isWellFormedWord a = true := by
  cases ex <;> cases c <;> decide +kernel

/-- genmove: the command is sent. -/
theorem genmove_track (C : Colour → Channel σ) (hal : AlOK al) {h : List Mv} {c : Colour} {b : Bool} {env : GEnv (σ × List Event) τ}
    {ex : Colour → Bool} {kn : Colour → Option Bool} (hg : GCAt false al (fun c => pre c ++ renamed (al c) (heard (ex c) c (.told h))) kn env.gc)
    (hx : ex c = b) (hok : ∀ c, (cfg.claimAllowed c = false → ex c = false) ∧ (cfg.claimAllowed c = true → kn c = some (ex c) ∨ kn c = none ∧ NeverAsked c (.told h)))
    (hc : cfg.claimAllowed c = true → kn c = some b) :
    AskPost (Transcript al pre cfg false) (fun act => ∀ p, act = .move (some p) → OnBoard cfg.boardSize p) h c
      (genmove (fun c => logged (C c)) cfg c b env) := by
  unfold genmove
  have hcmd : (if b then "gomill-genmove_ex".toList else "genmove".toList) = (askCommand b c).1 := by cases b <;> rfl
  have harg : (if b then [colourWord c, "claim".toList] else [colourWord c]) = (askCommand b c).2 := by cases b <;> rfl
  simp only [hcmd, harg]
  have hs := send_at C hal hg c (ask_words b c).1 (ask_words b c).2
  have hsent : ∀ (gc' : GC (σ × List Event)) (m : Option (Option Pt)),
      GCAt false al (upd (fun c => pre c ++ renamed (al c) (heard (ex c) c (.told h))) c
        (pre c ++ renamed (al c) (heard (ex c) c (.told h)) ++ [(aliasOf (al c) (askCommand b c).1, (askCommand b c).2)])) kn gc' →
      Transcript al pre cfg false (.asked h c m) ({ env with gc := gc' } : GEnv (σ × List Event) τ) := by
    intro gc' m hgc
    refine ⟨ex, kn, ⟨hgc.mode, fun d => ?_⟩, fun d => ⟨(hok d).1, fun hcl => ?_⟩⟩
    · have := hgc.ctl d
      unfold upd at this
      by_cases hd : d = c
      · subst hd
        simp only [if_true] at this
        rw [List.append_assoc] at this
        rw [heard_own, renamed_append, hx]
        rw [hx] at this
        exact this
      · simp only [if_neg hd] at this
        rw [heard_other _ (fun h => hd h.symm)]
        exact this
    · by_cases hd : d = c
      · subst hd
        rw [hx]
        exact .inl (hc hcl)
      · rcases (hok d).2 hcl with hk | ⟨hk, hk'⟩
        · exact .inl hk
        · exact .inr ⟨hk, hk', fun h => hd h.symm⟩
  cases hy : env.gc.send (fun c => logged (C c)) c (askCommand b c).1 (askCommand b c).2 with
  | mk y gc' =>
    rw [hy] at hs
    rcases hs with hs | ⟨ho, _⟩
    · cases y with
      | error e =>
        cases e with
        | badResponse m g => exact ⟨hsent _ _ hs, fun p hp => nomatch hp⟩
        | channel e => exact .inr (hsent _ _ hs)
        | value => exact .inr (hsent _ _ hs)
        | channelIsClosed => exact .inr (hsent _ _ hs)
      | ok raw =>
        simp only
        split
        · exact ⟨hsent _ _ hs, fun p hp => nomatch hp⟩
        · split
          · exact ⟨hsent _ _ hs, fun p hp => nomatch hp⟩
          · split
            · rename_i m hm
              refine ⟨hsent _ _ hs, fun p hp => ?_⟩
              cases hp
              exact moveFromVertex_on hm
            · exact ⟨hsent _ _ hs, fun p hp => nomatch hp⟩
    · cases ho

theorem getMove_track (C : Colour → Channel σ) (hal : AlOK al) (h : List Mv) (c : Colour) (env : GEnv (σ × List Event) τ)
    (ht : Transcript al pre cfg false (.told h) env) :
    AskPost (Transcript al pre cfg false) (fun act => ∀ p, act = .move (some p) → OnBoard cfg.boardSize p) h c
      (getMove (fun c => logged (C c)) cfg c env) := by
  obtain ⟨ex, kn, hg, hok⟩ := ht
  unfold getMove
  cases hcl : cfg.claimAllowed c with
  | false =>
    rw [if_neg (by decide)]
    exact genmove_track C hal hg ((hok c).1 hcl) hok (fun h => by rw [hcl] at h; cases h)
  | true =>
    rw [if_pos rfl]
    have hk := known_ex_at C hal hg c
    unfold exName at hk
    cases hx : env.gc.knownCommand (fun c => logged (C c)) c "gomill-genmove_ex".toList with
    | mk x gc' =>
      rw [hx] at hk
      cases x with
      | error e =>
        rcases hk with ⟨b, hb, _⟩ | ⟨_, _, hk⟩
        · cases hb
        · exact .inl ⟨ex, kn, hk, hok⟩
      | ok b =>
        rcases hk with ⟨b', hb, hkn, hk⟩ | ⟨_, hb, _⟩
        · cases hb
          simp only
          have hsame : (fun d => pre d ++ renamed (al d) (heard (upd ex c b d) d (.told h))) = fun d => pre d ++ renamed (al d) (heard (ex d) d (.told h)) := by
            funext d
            unfold upd
            split
            · rename_i hd
              subst hd
              have hne := (hok d).2 hcl
              rcases hkn with hkn | hkn
              · rcases hne with h1 | ⟨_, h1⟩
                · rw [hkn] at h1; cases h1
                · rw [heard_never h1 b (ex d)]
              · rcases hne with h1 | ⟨h1, _⟩
                · rw [hkn] at h1; cases h1; rfl
                · rw [hkn] at h1; cases h1
            · rfl
          have hg' : GCAt false al (fun d => pre d ++ renamed (al d) (heard (upd ex c b d) d (.told h))) (upd kn c (some b)) gc' := by
            rw [hsame]; exact hk
          refine genmove_track C hal (env := { env with gc := gc' }) (ex := upd ex c b) (kn := upd kn c (some b)) hg' (by unfold upd; simp) ?_ (fun _ => by unfold upd; simp)
          intro d
          unfold upd
          by_cases hd : d = c
          · subst hd
            simp only [if_true]
            exact ⟨fun hf => (by rw [hcl] at hf; cases hf), fun _ => .inl trivial⟩
          · simp only [if_neg hd]
            exact hok d
        · cases hb

theorem _root_.Gomill.Played.onBoard {n : Nat} {b0 : Board} {first : Colour} {limit : Option Int} {h : List Mv} {e : Option Ending} {g : Game}
    (hp : Played n b0 first limit h e g) : ∀ m ∈ h, ∀ p, m.2 = some p → OnBoard n p := by
  induction hp with
  | start => exact fun m hm => nomatch hm
  | move c m _ hm _ _ ih =>
    intro x hx
    rcases List.mem_append.1 hx with hx | hx
    · exact ih x hx
    · rw [List.mem_singleton.1 hx]; exact hm
  | illegal _ _ _ _ _ _ ih => exact ih
  | moveError _ _ _ _ _ ih => exact ih
  | resign _ _ _ ih => exact ih
  | resignError _ _ _ ih => exact ih
  | claim _ _ _ ih => exact ih
  | claimError _ _ _ ih => exact ih
  | forfeit _ _ _ _ ih => exact ih
  | forfeitError _ _ _ _ ih => exact ih

theorem opp_opp (c : Colour) : c.opponent.opponent = c := by cases c <;> rfl

theorem notifyMove_track (C : Colour → Channel σ) (hal : AlOK al) (hn : cfg.boardSize ≤ 25) (h : List Mv) (c : Colour) (m : Option Pt) (env : GEnv (σ × List Event) τ)
    (ht : Transcript al pre cfg o (.asked h c (some m)) env) (hm : ∀ p, m = some p → OnBoard cfg.boardSize p) :
    TellPost (Transcript al pre cfg o) (fun _ => True) h c m (notifyMove (fun c => logged (C c)) c.opponent m env) := by
  obtain ⟨ex, kn, hg, hok⟩ := ht
  unfold notifyMove
  have hf := moveWord_format hn hm
  rw [hf, opp_opp]
  simp only
  have hw : ∀ a ∈ [colourWord c, moveWord m], isWellFormedWord a = true := by
    intro a ha
    simp only [List.mem_cons, List.not_mem_nil, or_false] at ha
    rcases ha with rfl | rfl
    · exact word_colour c
    · exact word_formatVertex hf
  have hs := send_at C hal hg c.opponent (command := "play".toList) (args := [colourWord c, moveWord m]) (by decide +kernel) hw
  have hsent : ∀ gc' : GC (σ × List Event),
      GCAt o al (upd (fun d => pre d ++ renamed (al d) (heard (ex d) d (.asked h c (some m)))) c.opponent
        (pre c.opponent ++ renamed (al c.opponent) (heard (ex c.opponent) c.opponent (.asked h c (some m))) ++
          [(aliasOf (al c.opponent) "play".toList, [colourWord c, moveWord m])])) kn gc' →
      Transcript al pre cfg o (.told (h ++ [(c, m)])) ({ env with gc := gc' } : GEnv (σ × List Event) τ) := by
    intro gc' hgc
    refine ⟨ex, kn, ⟨hgc.mode, fun d => ?_⟩, fun d => ⟨(hok d).1, fun hcl => ?_⟩⟩
    · have := hgc.ctl d
      unfold upd at this
      by_cases hd : d = c.opponent
      · subst hd
        simp only [if_true] at this
        rw [List.append_assoc] at this
        rw [heard_other _ (fun h => opp_ne c h.symm)] at this
        rw [heard_told, List.map_append, renamed_append]
        have hmc : [(c, m)].map (moveCommand (ex c.opponent) c.opponent) = [("play".toList, [colourWord c, moveWord m])] := by
          simp only [List.map_cons, List.map_nil, moveCommand]
          rw [if_neg (fun h => opp_ne c h.symm)]
        rw [hmc]
        exact this
      · simp only [if_neg hd] at this
        have hdc : d = c := by cases d <;> cases c <;> first | rfl | exact absurd rfl hd
        subst hdc
        rw [heard_own] at this
        rw [heard_told, List.map_append]
        have hmc : [(d, m)].map (moveCommand (ex d) d) = [askCommand (ex d) d] := by
          simp only [List.map_cons, List.map_nil, moveCommand, if_true]
        rw [hmc]
        exact this
    · rcases (hok d).2 hcl with hk | ⟨hk, hk'⟩
      · exact .inl hk
      · refine .inr ⟨hk, ?_⟩
        intro x hx
        rcases List.mem_append.1 hx with hx | hx
        · exact hk'.1 x hx
        · rw [List.mem_singleton.1 hx]; exact hk'.2
  cases hx : env.gc.send (fun c => logged (C c)) c.opponent "play".toList [colourWord c, moveWord m] with
  | mk x gc' =>
    rw [hx] at hs
    rcases hs with hs | ⟨ho, ⟨msg, hmsg⟩, hs⟩
    · cases x with
      | error e =>
        cases e with
        | badResponse msg gtp =>
          simp only
          split
          · exact ⟨trivial, (fun h => nomatch h), .inl (hsent _ hs)⟩
          · exact ⟨trivial, (fun h => nomatch h), .inl (hsent _ hs)⟩
        | channel e => exact .inl (hsent _ hs)
        | value => exact .inl (hsent _ hs)
        | channelIsClosed => exact .inl (hsent _ hs)
      | ok r => exact ⟨trivial, fun _ => hsent _ hs, .inl (hsent _ hs)⟩
    · simp only at hmsg
      subst hmsg
      simp only
      rw [if_neg (fun h => nomatch h)]
      exact ⟨trivial, (fun h => nomatch h), .inr ⟨ex, kn, hs, hok⟩⟩

theorem gtp_tracks (C : Colour → Channel σ) (hal : AlOK al) (hn : cfg.boardSize ≤ 25) {b0 : Board} {first : Colour} {limit : Option Int} :
    Tracks (gtpBackend (fun c => logged (C c)) cfg) cfg.boardSize b0 first limit (Transcript al pre cfg)
      (fun _ _ act => ∀ p, act = .move (some p) → OnBoard cfg.boardSize p) (fun _ _ => True) where
  onBoard := fun _ _ p h => h p rfl
  endGame := by
    rintro ph env ⟨ex, kn, h1, h2⟩
    exact ⟨ex, kn, ⟨rfl, h1.ctl⟩, h2⟩
  comment := by
    intro o ph c env h
    refine h.keep fun S kn hg => ?_
    have hm := maybe_at C hal hg c (command := "gomill-explain_last_move".toList) (by decide +kernel)
    show GCAt o al S kn (getLastMoveComment (fun c => logged (C c)) cfg c env).2.gc
    unfold getLastMoveComment
    cases hx : env.gc.maybeSend (fun c => logged (C c)) c "gomill-explain_last_move".toList [] with
    | mk x gc' =>
      rw [hx] at hm
      cases x with
      | error e => exact hm
      | ok r => cases r <;> exact hm
  afterMove := by
    intro o ph c m b env h
    refine h.keep fun S kn hg => ?_
    show GCAt o al S kn (afterMove cfg c m b env).2.gc
    unfold afterMove
    split <;> exact hg
  scoreGame := by
    intro ph b env h
    refine h.keep fun S kn hg => ?_
    show GCAt true al S kn (scoreGame (fun c => logged (C c)) cfg b env).2.gc
    unfold scoreGame
    split
    · split <;> exact hg
    · unfold scoreGameGtp
      have hm := askScorers_at C hal cfg.scorers env.gc hg
      cases hx : askScorers (fun c => logged (C c)) cfg.scorers env.gc with
      | mk x gc' =>
        rw [hx] at hm
        cases x with
        | error e => exact hm
        | ok raw =>
          simp only
          split <;> exact hm
  getMove := fun h c env ht _ _ => getMove_track C hal h c env ht
  notifyMove := by
    rintro o h c m env ht _ ⟨g, hp⟩
    exact notifyMove_track C hal hn h c m env ht (fun p hpm => hp.onBoard (c, m) (by simp) p hpm)

/-! ### Setting up -/

theorem upd_upd {α : Type} (f : Colour → α) (c : Colour) (x y : α) : upd (upd f c x) c y = upd f c y := by
  funext d
  unfold upd
  split <;> rfl

theorem send_normal (C : Colour → Channel σ) (hal : AlOK al) {S : Colour → List GtpCommand} {kn : Colour → Option Bool} {gc : GC (σ × List Event)}
    (h : GCAt false al S kn gc) (c : Colour) {command : Str} {args : List Str} (hc : command ∈ gameNames) (ha : ∀ a ∈ args, isWellFormedWord a = true) :
    GCAt false al (upd S c (S c ++ renamed (al c) [(command, args)])) kn (gc.send (fun c => logged (C c)) c command args).2 := by
  rcases send_at C hal h c hc ha with hs | ⟨ho, _⟩
  · exact hs
  · cases ho

theorem startColour_at (C : Colour → Channel σ) (hal : AlOK al) (hk : isWellFormedWord cfg.komiText = true) {S : Colour → List GtpCommand} {kn : Colour → Option Bool}
    {gc gc' : GC (σ × List Event)} (h : GCAt false al S kn gc) (c : Colour) (hs : startColour (fun c => logged (C c)) cfg c gc = (.ok (), gc')) :
    GCAt false al (upd S c (S c ++ renamed (al c) (setupCommands cfg.boardSize cfg.komiText none c))) kn gc' := by
  unfold startColour at hs
  have h1 := send_normal C hal h c (command := "boardsize".toList) (args := [strInt cfg.boardSize]) (by decide +kernel)
    (by simpa using word_strInt cfg.boardSize)
  cases hx : gc.send (fun c => logged (C c)) c "boardsize".toList [strInt cfg.boardSize] with
  | mk x gc1 =>
    rw [hx] at hs h1
    cases x with
    | error e => cases hs
    | ok r =>
      simp only at hs h1
      have h2 := send_normal C hal h1 c (command := "clear_board".toList) (args := []) (by decide +kernel) (fun _ h => nomatch h)
      cases hy : gc1.send (fun c => logged (C c)) c "clear_board".toList [] with
      | mk y gc2 =>
        rw [hy] at hs h2
        cases y with
        | error e => cases hs
        | ok r =>
          simp only at hs h2
          have h3 := send_normal C hal h2 c (command := "komi".toList) (args := [cfg.komiText]) (by decide +kernel) (by simpa using hk)
          cases hz : gc2.send (fun c => logged (C c)) c "komi".toList [cfg.komiText] with
          | mk z gc3 =>
            rw [hz] at hs h3
            cases z with
            | error e => cases hs
            | ok r =>
              cases hs
              have e : ∀ (f : Colour → List GtpCommand) x, upd f c x c = x := by intro f x; unfold upd; simp
              simp only [upd_upd, e, List.append_assoc] at h3
              exact h3

theorem prepare_at (C : Colour → Channel σ) (hal : AlOK al) (hk : isWellFormedWord cfg.komiText = true) {S : Colour → List GtpCommand} {kn : Colour → Option Bool}
    {gc : GC (σ × List Event)} (h : GCAt o al S kn gc) (user : τ) (limit : Option Int) (gameId : Option Str) {g : GtpGame (σ × List Event) τ}
    (hp : (GtpGame.init cfg gc user limit gameId).prepare (fun c => logged (C c)) cfg = (.ok (), g)) :
    GCAt false al (fun c => S c ++ renamed (al c) (setupCommands cfg.boardSize cfg.komiText none c)) kn g.runner.env.gc ∧ g.runner.state = 1 ∧
      g.runner.handicapStones = none := by
  unfold GtpGame.prepare Runner.prepare at hp
  simp only [GtpGame.init, Runner.init, ne_eq, not_true_eq_false, if_false, Runner.call] at hp
  cases hx : (gtpBackend (fun c => logged (C c)) cfg).startNewGame cfg.boardSize cfg.komi ⟨gc, none, user, []⟩ with
  | mk x env =>
    rw [hx] at hp
    cases x with
    | error e => cases hp
    | ok u =>
      cases hp
      refine ⟨?_, rfl, rfl⟩
      change startNewGame (fun c => logged (C c)) cfg cfg.boardSize cfg.komi ⟨gc, none, user, []⟩ = _ at hx
      unfold startNewGame at hx
      rw [if_neg (by simp)] at hx
      have h0 : GCAt false al S kn (gc.setCautious false) := ⟨rfl, h.ctl⟩
      cases hy : startColour (fun c => logged (C c)) cfg .b (gc.setCautious false) with
      | mk y gc1 =>
        rw [hy] at hx
        cases y with
        | error e => simp [toBackend, GEnv.lift] at hx
        | ok u =>
          simp only at hx
          have h1 := startColour_at C hal hk h0 .b hy
          cases hz : startColour (fun c => logged (C c)) cfg .w gc1 with
          | mk z gc2 =>
            rw [hz] at hx
            cases z with
            | error e => simp [toBackend, GEnv.lift] at hx
            | ok u =>
              have h2 := startColour_at C hal hk h1 .w hz
              simp only [toBackend, GEnv.lift, Prod.mk.injEq, true_and] at hx
              subst hx
              refine ⟨h2.mode, fun c => ?_⟩
              have := h2.ctl c
              cases c <;> simpa [upd] using this

/-- The handicap used, as the caller and the game see it. -/
def SetUp (C : Colour → Channel σ) (cfg : GtpCfg τ) (g0 : GtpGame σ τ) : Option (Int × Bool × List Pt) → GtpGame σ τ → Prop
  | none, g => g = g0
  | some (k, free, points), g => g0.setHandicap C cfg k free = (.ok (), g) ∧ g.runner.handicapStones = some points

theorem moveWords {n : Nat} (hn : n ≤ 25) : ∀ {l : List Pt}, (∀ p ∈ l, OnBoard n p) →
    (l.mapM (fun p => formatVertex (some p)) : Except Exc (List Str)) = .ok (l.map fun p => moveWord (some p)) := by
  intro l
  induction l with
  | nil => intro _; rfl
  | cons p l ih =>
    intro h
    have h1 := moveWord_format hn (m := some p) (fun q hq => by cases hq; exact h p List.mem_cons_self)
    have h2 := ih (fun q hq => h q (List.mem_cons_of_mem _ hq))
    simp only [List.mapM_cons, h1, h2]
    rfl

theorem notifyFixed_at (C : Colour → Channel σ) (hal : AlOK al) {S : Colour → List GtpCommand} {kn : Colour → Option Bool} {env env' : GEnv (σ × List Event) τ}
    (h : GCAt false al S kn env.gc) (c : Colour) (k : Int) (l : List Pt) (hs : notifyFixedHandicap (fun c => logged (C c)) cfg c k l env = (.ok (), env')) :
    GCAt false al (upd S c (S c ++ renamed (al c) [("fixed_handicap".toList, [strInt k])])) kn env'.gc := by
  unfold notifyFixedHandicap at hs
  split at hs
  · cases hs
  · have h1 := send_normal C hal h c (command := "fixed_handicap".toList) (args := [strInt k]) (by decide +kernel) (by simpa using word_strInt k)
    cases hx : env.gc.send (fun c => logged (C c)) c "fixed_handicap".toList [strInt k] with
    | mk x gc1 =>
      rw [hx] at hs h1
      cases x with
      | error e => cases hs
      | ok r =>
        simp only at hs h1
        split at hs
        · cases hs
        · split at hs
          · cases hs; exact h1
          · cases hs

theorem setHandicap_limit (B : Backend σ) (r : Runner σ) (k : Int) (free : Bool) : (r.setHandicap B k free).2.moveLimit = r.moveLimit := by
  unfold Runner.setHandicap Runner.finishHandicap Runner.call
  split
  · rfl
  · split
    · split
      · rfl
      · simp only
        cases B.getFreeHandicap k r.env with
        | mk x env =>
          cases x with
          | error e => rfl
          | ok l =>
            simp only
            cases B.notifyFreeHandicap l env with
            | mk y env' => cases y <;> rfl
    · split
      · rfl
      · rename_i l _
        simp only
        cases B.notifyFixedHandicap .b k l r.env with
        | mk x env =>
          cases x with
          | error e => rfl
          | ok u =>
            simp only
            cases B.notifyFixedHandicap .w k l env with
            | mk y env' => cases y <;> rfl

theorem setHandicap_at (C : Colour → Channel σ) (hal : AlOK al) (hn : cfg.boardSize ≤ 25) {S : Colour → List GtpCommand} {kn : Colour → Option Bool}
    {g0 g : GtpGame (σ × List Event) τ} (h : GCAt false al S kn g0.runner.env.gc) {hc : Option (Int × Bool × List Pt)}
    (hst : g0.runner.state = 1) (hs : SetUp (fun c => logged (C c)) cfg g0 hc g) :
    GCAt false al (fun c => S c ++ renamed (al c) (handicapCommands hc c)) kn g.runner.env.gc := by
  cases hc with
  | none =>
    have hs : g = g0 := hs
    rw [hs]
    simpa [handicapCommands, renamed] using h
  | some x =>
    obtain ⟨k, free, points⟩ := x
    obtain ⟨hs, hp⟩ := hs
    unfold GtpGame.setHandicap at hs
    simp only [Prod.mk.injEq] at hs
    obtain ⟨hs, rfl⟩ := hs
    simp only at hp ⊢
    generalize hr : ({ g0.runner with env := { g0.runner.env with handicap := some k } } : Runner (GEnv (σ × List Event) τ)) = r0 at *
    have h0 : GCAt false al S kn r0.env.gc := by rw [← hr]; exact h
    have hst0 : r0.state = 1 := by rw [← hr]; exact hst
    clear hr h hst
    obtain ⟨hbad, hgood⟩ := C31_set_handicap (gtpBackend (fun c => logged (C c)) cfg) r0 hst0 k free
    by_cases hok : HandicapOK r0.boardSize k free
    · obtain ⟨hfree, hfixed⟩ := hgood hok
      cases free with
      | true =>
        obtain ⟨f1, f2, f3⟩ := hfree rfl
        cases hx : (gtpBackend (fun c => logged (C c)) cfg).getFreeHandicap k r0.env with
        | mk x env =>
          cases x with
          | error e => rw [f1 e env hx] at hs; cases hs
          | ok l =>
            cases hy : (gtpBackend (fun c => logged (C c)) cfg).notifyFreeHandicap l env with
            | mk y env' =>
              cases y with
              | error e => rw [f2 l env e env' hx hy] at hs; cases hs
              | ok u =>
                rw [f3 l env env' hx hy] at hp ⊢
                simp only [Option.some.injEq] at hp
                subst hp
                simp only
                change getFreeHandicap (fun c => logged (C c)) cfg k r0.env = _ at hx
                change notifyFreeHandicap (fun c => logged (C c)) l env = _ at hy
                unfold getFreeHandicap at hx
                split at hx
                · cases hx
                · have h1 := send_normal C hal h0 .b (command := "place_free_handicap".toList) (args := [strInt k]) (by decide +kernel) (by simpa using word_strInt k)
                  cases hz : r0.env.gc.send (fun c => logged (C c)) .b "place_free_handicap".toList [strInt k] with
                  | mk z gc1 =>
                    rw [hz] at hx h1
                    cases z with
                    | error e => cases hx
                    | ok vs =>
                      simp only at hx h1
                      split at hx
                      · cases hx
                      · rename_i pts hv
                        split at hx
                        · cases hx
                        · split at hx
                          · cases hx
                          · simp only [Prod.mk.injEq, Except.ok.injEq] at hx
                            obtain ⟨rfl, rfl⟩ := hx
                            have hon : ∀ p ∈ pts.filterMap id, OnBoard cfg.boardSize p := by
                              intro p hp
                              obtain ⟨m, hm, he⟩ := List.mem_filterMap.1 hp
                              rw [show m = some p from he] at hm
                              exact readVertices_on hv p hm
                            unfold notifyFreeHandicap at hy
                            have hvt := moveWords hn hon
                            rw [hvt] at hy
                            simp only at hy
                            have h2 := send_normal C hal h1 .w (command := "set_free_handicap".toList) (args := (pts.filterMap id).map fun p => moveWord (some p))
                              (by decide +kernel) (by
                                intro a ha
                                obtain ⟨p, hp, rfl⟩ := List.mem_map.1 ha
                                exact word_formatVertex (moveWord_format hn (m := some p) (fun q hq => by cases hq; exact hon p hp)))
                            cases hw : gc1.send (fun c => logged (C c)) .w "set_free_handicap".toList ((pts.filterMap id).map fun p => moveWord (some p)) with
                            | mk w gc2 =>
                              rw [hw] at hy h2
                              cases w with
                              | error e => cases hy
                              | ok r =>
                                simp only [Prod.mk.injEq, true_and] at hy
                                subst hy
                                simp only at h2 ⊢
                                refine ⟨h2.mode, fun c => ?_⟩
                                have := h2.ctl c
                                cases c <;> exact this
      | false =>
        obtain ⟨l, hl, f1, f2, f3⟩ := hfixed rfl
        cases hx : (gtpBackend (fun c => logged (C c)) cfg).notifyFixedHandicap .b k l r0.env with
        | mk x env =>
          cases x with
          | error e => rw [f1 e env hx] at hs; cases hs
          | ok u =>
            cases hy : (gtpBackend (fun c => logged (C c)) cfg).notifyFixedHandicap .w k l env with
            | mk y env' =>
              cases y with
              | error e => rw [f2 env e env' hx hy] at hs; cases hs
              | ok u =>
                rw [f3 env env' hx hy]
                simp only
                have h1 := notifyFixed_at C hal h0 .b k l hx
                have h2 := notifyFixed_at C hal h1 .w k l hy
                refine ⟨h2.mode, fun c => ?_⟩
                have := h2.ctl c
                cases c <;> exact this
    · rw [hbad hok] at hs; cases hs

theorem finish_at (C : Colour → Channel σ) (hal : AlOK al) {S : Colour → List GtpCommand} {kn : Colour → Option Bool} (g : GtpGame (σ × List Event) τ)
    (h : GCAt o al S kn g.runner.env.gc) (res : Res) : GCAt o al S kn (g.finish (fun c => logged (C c)) cfg res).2.runner.env.gc := by
  unfold GtpGame.finish
  have h1 := cpuTimes_at C cfg.cpuFloat hal h
  simp only
  cases hx : g.runner.env.gc.cpuTimes (fun c => logged (C c)) cfg.cpuFloat with
  | mk x gc1 =>
    rw [hx] at h1
    cases x with
    | error e => exact h1
    | ok r => exact h1

/-- What is sent to the engines in a whole game.  However the run ends, the commands sent to each player since the game was made (apart from the queries) are: the
commands to set up the game; then, in order, for each move, a request for a move if it was the player's own, and a `play` command if it was the opponent's; and perhaps
a last request, or a last move not passed on, as `Standing` says. -/
theorem C63_transcript (C : Colour → Channel σ) (cfg : GtpCfg τ) (hk : isWellFormedWord cfg.komiText = true) (hn : 2 ≤ cfg.boardSize ∧ cfg.boardSize ≤ 25)
    (fmt : Rat → Str) (gc : GC (σ × List Event)) (hgc : Sound gc) (hal : ∀ c, AliasesOK (gc.ctl c).aliases) (user : τ) (limit : Option Int) (gameId : Option Str)
    (g0 g : GtpGame (σ × List Event) τ) (hprep : (GtpGame.init cfg gc user limit gameId).prepare (fun c => logged (C c)) cfg = (.ok (), g0))
    (hc : Option (Int × Bool × List Pt)) (hset : SetUp (fun c => logged (C c)) cfg g0 hc g)
    (fuel : Nat) (r : Except GExc Unit) (g' : GtpGame (σ × List Event) τ) (game : Option Game)
    (hrun : g.run (fun c => logged (C c)) cfg fmt fuel = some (r, g', game)) :
    ∃ (b0 : Board) (first : Colour) (gm : Game) (h : List Mv) (e : Option Ending) (ph : Phase) (ex : Colour → Bool), game = some gm ∧ StartBoard g.runner b0 ∧ first = (if hc = none then .b else .w) ∧ Played cfg.boardSize b0 first limit h e gm ∧
      Standing (r ≠ .ok ()) first (fun _ _ _ => True) (fun _ _ => True) h e (movesOf g'.runner) ph ∧ (r = .ok () → gm.isOver = true) ∧
      (∀ c, ex c = true → cfg.claimAllowed c = true) ∧
      ∀ c, gameCommands (gc.ctl c).aliases (g'.runner.env.gc.ctl c).chan.2 =
        gameCommands (gc.ctl c).aliases (gc.ctl c).chan.2 ++
          renamed (gc.ctl c).aliases (setupCommands cfg.boardSize cfg.komiText hc c ++ heard (ex c) c ph) := by
  have halo : AlOK (fun c => (gc.ctl c).aliases) := ⟨fun c => (hgc c).2.2, hal⟩
  have h0 : GCAt gc.cautious (fun c => (gc.ctl c).aliases) (fun c => gameCommands (gc.ctl c).aliases (gc.ctl c).chan.2) (fun c => (gc.ctl c).known.lookup exName) gc :=
    ⟨rfl, fun c => ⟨(hgc c).1, rfl, rfl, rfl⟩⟩
  obtain ⟨h1, hst, hnone⟩ := prepare_at C halo hk h0 user limit gameId hprep
  have h2 := setHandicap_at C halo hn.2 h1 hst hset
  have hready0 : Ready (fun c => logged (C c)) cfg g0 := .prepare gc user limit gameId g0 hgc.usable hprep
  have hready : Ready (fun c => logged (C c)) cfg g := by
    cases hc with
    | none => rw [show g = g0 from hset]; exact hready0
    | some x => exact .handicap g0 g _ _ _ hready0 hset.1 (fun h => nomatch h)
  have hi := hready.inv hk hn.2
  have hlim : g.runner.moveLimit = limit := by
    have hl0 : g0.runner.moveLimit = limit := by
      unfold GtpGame.prepare Runner.prepare at hprep
      simp only [GtpGame.init, Runner.init, ne_eq, not_true_eq_false, if_false, Runner.call] at hprep
      cases hx : (gtpBackend (fun c => logged (C c)) cfg).startNewGame cfg.boardSize cfg.komi ⟨gc, none, user, []⟩ with
      | mk x env =>
        rw [hx] at hprep
        cases x with
        | error e => cases hprep
        | ok u => cases hprep; rfl
    cases hc with
    | none => rw [show g = g0 from hset]; exact hl0
    | some x =>
      have := hset.1
      unfold GtpGame.setHandicap at this
      simp only [Prod.mk.injEq] at this
      obtain ⟨_, rfl⟩ := this
      simp only
      rw [setHandicap_limit]
      exact hl0
  have hstones : (g.runner.handicapStones.getD [] = []) ↔ hc = none := by
    cases hc with
    | none => rw [show g = g0 from hset, hnone]; simp
    | some x =>
      obtain ⟨k, free, l⟩ := x
      obtain ⟨q1, q2⟩ := hset
      obtain ⟨r1, g1, e1, _, e3⟩ := setHandicap_ready (fun c => logged (C c)) cfg hn.2 (hready0.inv hk hn.2) k free
      rw [q1] at e1
      cases e1
      rcases e3 with ⟨e3, _⟩ | ⟨_, ⟨_, _, _, _, l', e4, e5, _⟩ | ⟨e3, _⟩ | ⟨e3, _⟩ | ⟨e3, _⟩⟩
      · cases e3
      · rw [e4]; simp [e5]
      · cases e3
      · cases e3
      · cases e3
  obtain ⟨game0, hmake⟩ := makeGame_ok hn.1 hi.size hi.stones
  obtain ⟨b0, first, hb, hg0, hfirst⟩ := makeGame_spec hmake
  obtain ⟨r1, x, k1, k2, k3, env', k4⟩ := gtpRun_cases (fun c => logged (C c)) cfg fmt fuel g r g' game hrun
  have hbr := hb.reachable
  obtain ⟨pre, hpre⟩ : ∃ pre : Colour → List GtpCommand, pre = fun c => gameCommands (gc.ctl c).aliases (gc.ctl c).chan.2 ++
    renamed (gc.ctl c).aliases (setupCommands cfg.boardSize cfg.komiText hc c) := ⟨_, rfl⟩
  have T := gtp_tracks (al := fun c => (gc.ctl c).aliases) (pre := pre)
    (cfg := cfg) C halo hn.2 (b0 := b0) (first := first) (limit := g.runner.moveLimit)
  rw [← hi.size] at T
  have hj : Transcript (fun c => (gc.ctl c).aliases) pre cfg false (.told []) g.runner.env := by
    refine ⟨fun c => cfg.claimAllowed c && ((gc.ctl c).known.lookup exName).getD false, fun c => (gc.ctl c).known.lookup exName, ⟨h2.mode, fun c => ?_⟩, fun c => ⟨?_, ?_⟩⟩
    · have := h2.ctl c
      rw [hpre]
      simp only [heard, List.map_nil, renamed, List.append_nil] at this ⊢
      unfold setupCommands at this ⊢
      simpa [handicapCommands, List.map_append] using this
    · intro hf; simp [hf]
    · intro ht
      simp only [ht, Bool.true_and]
      cases hl : (gc.ctl c).known.lookup exName with
      | none => exact .inr ⟨rfl, fun m hm => nomatch hm⟩
      | some b => exact .inl rfl
  obtain ⟨gm, h, e, ph, m1, m2, m3, m4, m5⟩ := run_tracks hi.moves (by rw [hi.size]; exact hn.2) hi.state hmake hbr hg0 T hj fuel _ k1
  simp only at m1 m3 m4 m5
  have hmv : movesOf g'.runner = movesOf x := by rw [k4]; rfl
  have fin : r = r1 ∨ r1 = .ok () := by
    cases hr1 : r1 with
    | error e => exact .inl (k2 e hr1).1
    | ok u => exact .inr rfl
  obtain ⟨ex, kn, q1, q2⟩ := m3
  have hsent : GCAt gm.isOver (fun c => (gc.ctl c).aliases) (fun c => pre c ++ renamed (gc.ctl c).aliases (heard (ex c) c ph)) kn g'.runner.env.gc := by
    cases hr1 : r1 with
    | error e => rw [(k2 e hr1).2]; exact q1
    | ok u =>
      cases hres : x.result with
      | none =>
        unfold GtpGame.run at hrun
        rw [k1, hr1] at hrun
        simp only [hres] at hrun
        cases hrun
        exact q1
      | some res =>
        have := k3 hr1 res hres
        have h5 := finish_at (cfg := cfg) C halo { g with runner := x } q1 res
        rw [this] at h5
        exact h5
  refine ⟨b0, first, gm, h, e, ph, ex, m1, hb, ?_, ?_, ?_, ?_, ?_, ?_⟩
  · rw [hfirst]
    by_cases hcn : hc = none
    · rw [if_pos (hstones.2 hcn), if_pos hcn]
    · rw [if_neg (fun hh => hcn (hstones.1 hh)), if_neg hcn]
  · rw [← hi.size, ← hlim]; exact m2
  · rw [hmv]
    refine m4.mono ?_ (fun _ _ _ _ => trivial) (fun _ _ _ => trivial)
    intro hne
    rcases fin with hf | hf
    · rw [hf]; exact hne
    · exact absurd hf hne
  · intro hr
    refine m5 ?_
    rcases fin with hf | hf
    · rw [← hf]; exact hr
    · exact hf
  · intro c hex
    cases hcl : cfg.claimAllowed c with
    | true => rfl
    | false => rw [(q2 c).1 hcl] at hex; cases hex
  · intro c
    rw [(hsent.ctl c).sent, hpre, renamed_append, List.append_assoc]

/-! ### The replies -/

/-- A game controller in normal mode, which can be used. -/
structure InUse (gc : GC σ) : Prop where
  mode : gc.cautious = false
  sound : Sound gc

theorem send_replies (C : Colour → Channel σ) {gc : GC σ} (hg : InUse gc) (c : Colour) {command : Str} {args : List Str} (hc : isWellFormedWord command = true)
    (ha : ∀ a ∈ args, isWellFormedWord a = true) {f : Bool} {text : Str} (hr : Replies (C c) (gc.ctl c) (command, args) f text) :
    ∃ gc', InUse gc' ∧ gc'.code = gc.code ∧ (f = false → gc.send C c command args = (.ok text, gc')) ∧
      (f = true → ∃ msg, text <:+ msg ∧ gc.send C c command args = (.error (.badResponse msg (some text)), gc')) := by
  obtain ⟨s1, s2, h1, h2⟩ := hr
  obtain ⟨k1, k2, k3⟩ := hg.sound c
  obtain ⟨_, _, d3, d4⟩ := C57_do_command (C c) (gc.ctl c) command args k1 ⟨word_translate k3 hc, ha⟩
  refine ⟨gc.set c { gc.ctl c with chan := s2, isFirst := false }, ⟨hg.mode, ?_⟩, rfl, ?_, ?_⟩
  · intro d
    unfold GC.set
    simp only
    split
    · exact ⟨k1, k2, k3⟩
    · exact hg.sound d
  · rintro rfl
    unfold GC.send
    rw [hg.mode, if_neg (by decide), d4 s1 text s2 h1 h2]
  · rintro rfl
    obtain ⟨msg, e1, e2⟩ := d3 s1 text s2 h1 h2
    refine ⟨msg, e2, ?_⟩
    unfold GC.send
    rw [hg.mode, if_neg (by decide), e1]

theorem toLower_toLower (c : Char) : c.toLower.toLower = c.toLower := by
  rw [Char.toLower.eq_def c]
  split
  · rename_i h
    have h1 := UInt32.le_iff_toNat_le.1 h.1
    have h2 := UInt32.le_iff_toNat_le.1 h.2
    have e1 : (65 : UInt32).toNat = 65 := rfl
    have e2 : (90 : UInt32).toNat = 90 := rfl
    have e3 : ('A'.val).toNat = 65 := rfl
    have e4 : ('Z'.val).toNat = 90 := rfl
    unfold Char.toLower
    rw [dif_neg]
    rintro ⟨h3, h4⟩
    have h4' := UInt32.le_iff_toNat_le.1 h4
    simp only [UInt32.toNat_add] at h4'
    have e5 : (32 : UInt32).toNat = 32 := rfl
    have e6 : ('a'.val - 'A'.val).toNat = 32 := rfl
    simp only [e6] at h4'
    omega
  · rename_i h
    unfold Char.toLower
    rw [dif_neg h]

theorem lower_lower (s : Str) : lower (lower s) = lower s := by
  unfold lower
  rw [List.map_map]
  exact List.map_congr_left fun c _ => toLower_toLower c

theorem moveFromVertex_lower (s : Str) (n : Int) : moveFromVertex (lower s) n = moveFromVertex s n := by
  unfold moveFromVertex
  rw [lower_lower]

theorem genmove_replies (C : Colour → Channel σ) (cfg : GtpCfg τ) (c : Colour) (ex : Bool) (env : GEnv σ τ) (hg : InUse env.gc) :
    (∀ raw, Replies (C c) (env.gc.ctl c) (askCommand ex c) false raw → ∃ act env', genmove C cfg c ex env = (.ok act, env') ∧ InUse env'.gc ∧
      Answers ex cfg.boardSize raw act) ∧
    (∀ text, Replies (C c) (env.gc.ctl c) (askCommand ex c) true text → ∃ msg env', genmove C cfg c ex env = (.ok (.forfeit msg), env') ∧ InUse env'.gc ∧ text <:+ msg) := by
  have hcmd : (if ex then "gomill-genmove_ex".toList else "genmove".toList) = (askCommand ex c).1 := by cases ex <;> rfl
  have harg : (if ex then [colourWord c, "claim".toList] else [colourWord c]) = (askCommand ex c).2 := by cases ex <;> rfl
  unfold genmove
  simp only [hcmd, harg]
  constructor
  · intro raw hr
    obtain ⟨gc', u1, _, u2, _⟩ := send_replies C hg c (gameName_word _ (ask_words ex c).1) (ask_words ex c).2 hr
    rw [u2 rfl]
    simp only
    by_cases h1 : lower raw = "resign".toList
    · rw [if_pos h1]; exact ⟨_, _, rfl, u1, .resign h1⟩
    · rw [if_neg h1]
      by_cases h2 : ex = true ∧ lower raw = "claim".toList
      · rw [if_pos h2]; exact ⟨_, _, rfl, u1, .claim h2.1 h2.2⟩
      · rw [if_neg h2, moveFromVertex_lower]
        cases hm : moveFromVertex raw cfg.boardSize with
        | ok m => exact ⟨_, _, rfl, u1, .move m hm⟩
        | error e => exact ⟨_, _, rfl, u1, .illFormed h1 (fun hx hl => h2 ⟨hx, hl⟩) (fun m hm' => by rw [hm] at hm'; cases hm')⟩
  · intro text hr
    obtain ⟨gc', u1, _, _, u2⟩ := send_replies C hg c (gameName_word _ (ask_words ex c).1) (ask_words ex c).2 hr
    obtain ⟨msg, u3, u4⟩ := u2 rfl
    rw [u4]
    exact ⟨msg, _, rfl, u1, u3⟩

/-- C63: asking for a move: the engine is asked with `gomill-genmove_ex` if the player may claim a win and its engine says it knows the command, otherwise with `genmove`.
Its answer is a resignation, a claim (if it may claim), a move, or else the player forfeits the game; so it does if the engine replies with a failure. -/
theorem C63_get_move (C : Colour → Channel σ) (cfg : GtpCfg τ) (c : Colour) (env : GEnv σ τ) (hg : InUse env.gc) :
    (cfg.claimAllowed c = false →
      (∀ raw, Replies (C c) (env.gc.ctl c) ("genmove".toList, [colourWord c]) false raw → ∃ act env', getMove C cfg c env = (.ok act, env') ∧ Answers false cfg.boardSize raw act) ∧
      (∀ text, Replies (C c) (env.gc.ctl c) ("genmove".toList, [colourWord c]) true text → ∃ msg env', getMove C cfg c env = (.ok (.forfeit msg), env') ∧ text <:+ msg)) ∧
    (cfg.claimAllowed c = true → ∀ ex gc1, env.gc.knownCommand C c "gomill-genmove_ex".toList = (.ok ex, gc1) →
      (∀ raw, Replies (C c) (gc1.ctl c) (askCommand ex c) false raw → ∃ act env', getMove C cfg c env = (.ok act, env') ∧ Answers ex cfg.boardSize raw act) ∧
      (∀ text, Replies (C c) (gc1.ctl c) (askCommand ex c) true text → ∃ msg env', getMove C cfg c env = (.ok (.forfeit msg), env') ∧ text <:+ msg)) := by
  constructor
  · intro hcl
    obtain ⟨g1, g2⟩ := genmove_replies C cfg c false env hg
    unfold getMove
    rw [hcl, if_neg (by decide)]
    refine ⟨fun raw hr => ?_, fun text hr => ?_⟩
    · obtain ⟨act, env', h1, _, h2⟩ := g1 raw hr
      exact ⟨act, env', h1, h2⟩
    · obtain ⟨msg, env', h1, _, h2⟩ := g2 text hr
      exact ⟨msg, env', h1, h2⟩
  · intro hcl ex gc1 hk
    have hu : InUse gc1 := by
      have hp := known_post (lv := True) C (o := false) (gc0 := env.gc) (gc := env.gc)
        ⟨hg.mode, fun d => ⟨(hg.sound d).1, (hg.sound d).2.2, fun _ _ => (hg.sound d).2.1, fun hb => by rw [(hg.sound d).2.1] at hb; cases hb⟩, rfl, rfl⟩ c
        (command := "gomill-genmove_ex".toList) (by decide +kernel)
      rw [hk] at hp
      exact ⟨hp.mode, fun d => ⟨(hp.ctl d).opened, (hp.ctl d).live rfl trivial, (hp.ctl d).aliases⟩⟩
    obtain ⟨g1, g2⟩ := genmove_replies C cfg c ex { env with gc := gc1 } hu
    unfold getMove
    rw [hcl, if_pos rfl, hk]
    refine ⟨fun raw hr => ?_, fun text hr => ?_⟩
    · obtain ⟨act, env', h1, _, h2⟩ := g1 raw hr
      exact ⟨act, env', h1, h2⟩
    · obtain ⟨msg, env', h1, _, h2⟩ := g2 text hr
      exact ⟨msg, env', h1, h2⟩

/-- C63: an answer means only one thing. -/
theorem C63_answers_unique (ex : Bool) (n : Nat) (raw : Str) (a a' : Act) (h : Answers ex n raw a) (h' : Answers ex n raw a') : a = a' := by
  have hr : ∀ m, lower raw = "resign".toList → moveFromVertex raw n ≠ .ok m := by
    intro m hl hm
    rw [← moveFromVertex_lower, hl] at hm
    cases m with
    | none =>
      have := ((C14_pass_characterisation _ _).1 hm).2
      revert this; decide +kernel
    | some p =>
      obtain ⟨_, _, c, l, r, h1, _, _, h2⟩ := (C14_characterisation _ _ _).1 hm
      rw [show "resign".toList = ['r','e','s','i','g','n'] from by decide +kernel] at h1
      cases h1
      revert h2
      have : parseInt (lower "esign".toList) = .error .valueError := by decide +kernel
      intro h2
      rw [show (['e','s','i','g','n'] : Str) = "esign".toList from by decide +kernel] at h2
      rw [this] at h2
      cases h2
  have hcl : ∀ m, lower raw = "claim".toList → moveFromVertex raw n ≠ .ok m := by
    intro m hl hm
    rw [← moveFromVertex_lower, hl] at hm
    cases m with
    | none =>
      have := ((C14_pass_characterisation _ _).1 hm).2
      revert this; decide +kernel
    | some p =>
      obtain ⟨_, _, c, l, r, h1, _, _, h2⟩ := (C14_characterisation _ _ _).1 hm
      rw [show "claim".toList = ['c','l','a','i','m'] from by decide +kernel] at h1
      cases h1
      revert h2
      have : parseInt (lower "laim".toList) = .error .valueError := by decide +kernel
      intro h2
      rw [show (['l','a','i','m'] : Str) = "laim".toList from by decide +kernel] at h2
      rw [this] at h2
      cases h2
  have hrc : lower raw = "resign".toList → lower raw = "claim".toList → False := by
    intro h1 h2
    rw [h1] at h2
    revert h2; decide +kernel
  cases h with
  | resign h1 =>
    cases h' with
    | resign => rfl
    | claim _ h2 => exact (hrc h1 h2).elim
    | move m h2 => exact (hr m h1 h2).elim
    | illFormed h2 => exact (h2 h1).elim
  | claim h0 h1 =>
    cases h' with
    | resign h2 => exact (hrc h2 h1).elim
    | claim => rfl
    | move m h2 => exact (hcl m h1 h2).elim
    | illFormed _ h2 => exact (h2 h0 h1).elim
  | move m h1 =>
    cases h' with
    | resign h2 => exact (hr m h2 h1).elim
    | claim _ h2 => exact (hcl m h2 h1).elim
    | move m' h2 => rw [h1] at h2; cases h2; rfl
    | illFormed _ _ h2 => exact (h2 m h1).elim
  | illFormed h1 h2 h3 =>
    cases h' with
    | resign h4 => exact (h1 h4).elim
    | claim h4 h5 => exact (h2 h4 h5).elim
    | move m h4 => exact (h3 m h4).elim
    | illFormed => rfl

/-- C63: telling an engine of its opponent's move: its `play` command is accepted; or it replies `illegal move`, and so claims that the move is illegal; or it
replies with another failure, which is an error of its own. -/
theorem C63_notify_move (C : Colour → Channel σ) (cfg : GtpCfg τ) (hn : cfg.boardSize ≤ 25) (c : Colour) (m : Option Pt) (hm : ∀ p, m = some p → OnBoard cfg.boardSize p)
    (env : GEnv σ τ) (hg : InUse env.gc) (f : Bool) (text : Str)
    (hr : Replies (C c) (env.gc.ctl c) ("play".toList, [colourWord c.opponent, moveWord m]) f text) :
    ∃ r env', notifyMove C c m env = (.ok r, env') ∧
      (f = false → r = (.accept, none)) ∧
      (f = true → text = "illegal move".toList → r = (.reject, some (env.gc.code c ++ " claims move ".toList ++ moveWord m ++ " is illegal".toList))) ∧
      (f = true → text ≠ "illegal move".toList → ∃ msg, r = (.error, some msg) ∧ text <:+ msg) := by
  have hf := moveWord_format hn hm
  have hw : ∀ a ∈ [colourWord c.opponent, moveWord m], isWellFormedWord a = true := by
    intro a ha
    simp only [List.mem_cons, List.not_mem_nil, or_false] at ha
    rcases ha with rfl | rfl
    · exact word_colour c.opponent
    · exact word_formatVertex hf
  obtain ⟨gc', u1, u2, u3, u4⟩ := send_replies C hg c (by decide +kernel) hw hr
  unfold notifyMove
  rw [hf]
  simp only
  cases f with
  | false =>
    rw [u3 rfl]
    exact ⟨_, _, rfl, fun _ => rfl, (fun h => nomatch h), fun h => nomatch h⟩
  | true =>
    obtain ⟨msg, v1, v2⟩ := u4 rfl
    rw [v2]
    simp only [Option.some.injEq]
    by_cases ht : text = "illegal move".toList
    · rw [if_pos ht]
      exact ⟨_, _, rfl, (fun h => nomatch h), fun _ _ => rfl, fun _ h => absurd ht h⟩
    · rw [if_neg ht]
      exact ⟨_, _, rfl, (fun h => nomatch h), fun _ h => absurd h ht, fun _ _ => ⟨msg, rfl, v1⟩⟩

/-- The vertices an engine lists, separated by single spaces, are these points. -/
def ListsPoints (n : Nat) (text : Str) (l : List Pt) : Prop :=
  (splitOn ' ' text).map (fun v => moveFromVertex v n) = l.map (fun p => .ok (some p))

theorem readVertices_some {n : Nat} {text : Str} {l : List (Option Pt)} :
    readVertices n text = some l ↔ (splitOn ' ' text).map (fun v => moveFromVertex v n) = l.map .ok := by
  unfold readVertices
  generalize splitOn ' ' text = vs
  induction vs generalizing l with
  | nil =>
    cases l with
    | nil => simp
    | cons => simp
  | cons v vs ih =>
    simp only [List.mapM_cons, Option.bind_eq_bind, Option.bind_eq_some_iff, Option.pure_def, List.map_cons]
    constructor
    · rintro ⟨m, hm, l', hl, hx⟩
      simp only [Option.some.injEq] at hx
      subst hx
      rw [List.map_cons, ih.1 hl]
      split at hm
      · rename_i m' hm'
        cases hm
        rw [hm']
      · cases hm
    · intro h
      cases l with
      | nil => cases h
      | cons m l' =>
        simp only [List.map_cons, List.cons.injEq] at h
        refine ⟨m, by rw [h.1], l', ih.2 h.2, rfl⟩

/-- C63: a fixed handicap is accepted exactly if the engine replies with a list of the right points, in any order; otherwise BadGtpResponse. -/
theorem C63_fixed_handicap (C : Colour → Channel σ) (cfg : GtpCfg τ) (c : Colour) (k : Int) (points : List Pt) (env : GEnv σ τ) (hg : InUse env.gc)
    (hh : env.handicap = some k) (f : Bool) (text : Str) (hr : Replies (C c) (env.gc.ctl c) ("fixed_handicap".toList, [strInt k]) f text) :
    ∃ r env', notifyFixedHandicap C cfg c k points env = (r, env') ∧ InUse env'.gc ∧
      (r = .ok () ↔ f = false ∧ ∃ l, ListsPoints cfg.boardSize text l ∧ ∀ p, p ∈ l ↔ p ∈ points) ∧ (r = .ok () ∨ r = .error (.backend 0)) := by
  obtain ⟨gc', u1, u2, u3, u4⟩ := send_replies C hg c (command := "fixed_handicap".toList) (by decide +kernel) (by simpa using word_strInt k) hr
  unfold notifyFixedHandicap
  rw [if_neg (by simp [hh])]
  cases f with
  | true =>
    obtain ⟨msg, v1, v2⟩ := u4 rfl
    rw [v2]
    exact ⟨_, _, rfl, u1, ⟨(fun h => nomatch h), fun h => nomatch h.1⟩, .inr rfl⟩
  | false =>
    rw [u3 rfl]
    simp only
    cases hv : readVertices cfg.boardSize text with
    | none =>
      refine ⟨_, _, rfl, u1, ⟨(fun h => nomatch h), ?_⟩, .inr rfl⟩
      rintro ⟨_, l, hl, _⟩
      have := readVertices_some.2 (hl.trans (by rw [List.map_map]; rfl : _ = (l.map some).map Except.ok))
      rw [hv] at this
      cases this
    | some seen =>
      simp only
      have hs := readVertices_some.1 hv
      by_cases hc : (∀ m ∈ seen, m ∈ points.map some) ∧ (∀ p ∈ points, some p ∈ seen)
      · rw [if_pos hc]
        refine ⟨_, _, rfl, u1, ⟨fun _ => ⟨trivial, ?_⟩, fun _ => rfl⟩, .inl rfl⟩
        have hall : seen = (seen.filterMap id).map some := by
          have : ∀ m ∈ seen, ∃ p, m = some p := fun m hm => by
            obtain ⟨p, _, hp⟩ := List.mem_map.1 (hc.1 m hm)
            exact ⟨p, hp.symm⟩
          clear hs hc hv
          induction seen with
          | nil => rfl
          | cons m ms ih =>
            obtain ⟨p, rfl⟩ := this m List.mem_cons_self
            simp only [List.filterMap_cons, id, List.map_cons, List.cons.injEq, true_and]
            exact ih (fun m hm => this m (List.mem_cons_of_mem _ hm))
        refine ⟨seen.filterMap id, ?_, fun p => ?_⟩
        · unfold ListsPoints
          rw [hs]
          conv_lhs => rw [hall]
          rw [List.map_map]
          rfl
        · rw [List.mem_filterMap]
          constructor
          · rintro ⟨m, hm, he⟩
            rw [show m = some p from he] at hm
            obtain ⟨q, hq, hqe⟩ := List.mem_map.1 (hc.1 _ hm)
            cases hqe
            exact hq
          · intro hp
            exact ⟨some p, hc.2 p hp, rfl⟩
      · rw [if_neg hc]
        refine ⟨_, _, rfl, u1, ⟨(fun h => nomatch h), ?_⟩, .inr rfl⟩
        rintro ⟨_, l, hl, hp⟩
        exfalso
        have := readVertices_some.2 (hl.trans (by rw [List.map_map]; rfl : _ = (l.map some).map Except.ok))
        rw [hv] at this
        cases this
        refine hc ⟨fun m hm => ?_, fun p hpp => ?_⟩
        · obtain ⟨p, hp', rfl⟩ := List.mem_map.1 hm
          exact List.mem_map.2 ⟨p, (hp p).1 hp', rfl⟩
        · exact List.mem_map.2 ⟨p, (hp p).2 hpp, rfl⟩

theorem setUpdate_full {α : Type} [DecidableEq α] (l : List α) : ∀ s : List α, l.Nodup → (∀ x ∈ l, x ∉ s) → (setUpdate s l).length = s.length + l.length := by
  induction l with
  | nil => intro s _ _; rfl
  | cons a l ih =>
    intro s h1 h2
    unfold setUpdate
    rw [List.foldl_cons]
    have ha : setAdd s a = s ++ [a] ∨ setAdd s a = a :: s := by
      unfold setAdd
      rw [if_neg (h2 a List.mem_cons_self)]
      first
        | exact .inl rfl
        | exact .inr rfl
    have hm : ∀ x, x ∈ setAdd s a ↔ x ∈ s ∨ x = a := by
      intro x
      rcases ha with ha | ha <;> rw [ha] <;> simp [or_comm]
    have hl : (setAdd s a).length = s.length + 1 := by rcases ha with ha | ha <;> rw [ha] <;> simp
    have := ih (setAdd s a) (List.nodup_cons.1 h1).2 (fun x hx hxs => by
      rcases (hm x).1 hxs with h | h
      · exact h2 x (List.mem_cons_of_mem _ hx) h
      · rw [h] at hx; exact (List.nodup_cons.1 h1).1 hx)
    unfold setUpdate at this
    rw [this, hl, List.length_cons]
    omega

/-- C63: a free handicap is accepted exactly if Black's engine replies with a list of different points; the number of points isn't checked. -/
theorem C63_free_handicap (C : Colour → Channel σ) (cfg : GtpCfg τ) (k : Int) (env : GEnv σ τ) (hg : InUse env.gc)
    (hh : env.handicap = some k) (f : Bool) (text : Str) (hr : Replies (C .b) (env.gc.ctl .b) ("place_free_handicap".toList, [strInt k]) f text) :
    ∃ r env', getFreeHandicap C cfg k env = (r, env') ∧ InUse env'.gc ∧
      (∀ l, r = .ok l ↔ f = false ∧ ListsPoints cfg.boardSize text l ∧ l.Nodup) ∧ ((∃ l, r = .ok l) ∨ r = .error (.backend 0)) := by
  obtain ⟨gc', u1, u2, u3, u4⟩ := send_replies C hg .b (command := "place_free_handicap".toList) (by decide +kernel) (by simpa using word_strInt k) hr
  unfold getFreeHandicap
  rw [if_neg (by simp [hh])]
  cases f with
  | true =>
    obtain ⟨msg, v1, v2⟩ := u4 rfl
    rw [v2]
    exact ⟨_, _, rfl, u1, fun l => ⟨(fun h => nomatch h), fun h => nomatch h.1⟩, .inr rfl⟩
  | false =>
    rw [u3 rfl]
    simp only
    have conv : ∀ l, ListsPoints cfg.boardSize text l → readVertices cfg.boardSize text = some (l.map some) := fun l hl =>
      readVertices_some.2 (hl.trans (by rw [List.map_map]; rfl : _ = (l.map some).map Except.ok))
    cases hv : readVertices cfg.boardSize text with
    | none =>
      refine ⟨_, _, rfl, u1, fun l => ⟨(fun h => nomatch h), ?_⟩, .inr rfl⟩
      rintro ⟨_, hl, _⟩
      rw [conv l hl] at hv
      cases hv
    | some seen =>
      simp only
      have hs := readVertices_some.1 hv
      by_cases hnone : none ∈ seen
      · rw [if_pos hnone]
        refine ⟨_, _, rfl, u1, fun l => ⟨(fun h => nomatch h), ?_⟩, .inr rfl⟩
        rintro ⟨_, hl, _⟩
        rw [conv l hl] at hv
        cases hv
        obtain ⟨p, _, hp⟩ := List.mem_map.1 hnone
        cases hp
      · rw [if_neg hnone]
        have hall : seen = (seen.filterMap id).map some := by
          clear hs hv
          induction seen with
          | nil => rfl
          | cons m ms ih =>
            cases m with
            | none => exact absurd List.mem_cons_self hnone
            | some p =>
              simp only [List.filterMap_cons, id, List.map_cons, List.cons.injEq, true_and]
              exact ih (fun hm => hnone (List.mem_cons_of_mem _ hm))
        have hlist : ListsPoints cfg.boardSize text (seen.filterMap id) := by
          unfold ListsPoints
          rw [hs]
          conv_lhs => rw [hall]
          rw [List.map_map]
          rfl
        have huniq : ∀ l, ListsPoints cfg.boardSize text l → l = seen.filterMap id := by
          intro l hl
          rw [conv l hl] at hv
          cases hv
          clear hs hlist hall hnone hl
          induction l with
          | nil => rfl
          | cons p l ih => simp only [List.map_cons, List.filterMap_cons, id, List.cons.injEq, true_and]; exact ih
        by_cases hlen : (getFreeHandicap.pointSet seen).length < seen.length
        · rw [if_pos hlen]
          refine ⟨_, _, rfl, u1, fun l => ⟨(fun h => nomatch h), ?_⟩, .inr rfl⟩
          rintro ⟨_, hl, hnd⟩
          exfalso
          have hl' := huniq l hl
          have hnd' : seen.Nodup := by
            rw [hall, ← hl']
            exact hnd.map (fun a b h => by cases h; rfl)
          have := setUpdate_full seen [] hnd' (fun _ _ h => nomatch h)
          unfold getFreeHandicap.pointSet at hlen
          simp only [List.length_nil] at this
          omega
        · rw [if_neg hlen]
          have hnd : seen.Nodup := by
            refine (setUpdate_nodup seen [] ?_).1
            unfold getFreeHandicap.pointSet at hlen
            simp only [List.length_nil]
            omega
          refine ⟨_, _, rfl, u1, fun l => ⟨fun h => ?_, fun h => ?_⟩, .inl ⟨_, rfl⟩⟩
          · cases h
            exact ⟨trivial, hlist, filterMap_some_nodup hnd⟩
          · rw [huniq l h.2.1]

/-- exampleGC, over channels which record what is sent. -/
def loggedGC : GC (Option Str × List Event) where
  ctl := fun c => Ctl.init (none, []) (match c with | .b => "player one".toList | .w => "player two".toList)
  code := exampleGC.code
  lateErrors := []
  cautious := false

def loggedEngines : Colour → Channel (Option Str × List Event) := fun c => logged (passer (match c with | .b => "B+3.5" | .w => "W+3.5"))

/-- A logged game with a free handicap of two stones, for which the engine places three. -/
def loggedPrepared : Except GExc Unit × GtpGame (Option Str × List Event) Unit :=
  (GtpGame.init exampleCfg loggedGC () (some 20) (some "1".toList)).prepare loggedEngines exampleCfg

def loggedSet : Except GExc Unit × GtpGame (Option Str × List Event) Unit := loggedPrepared.2.setHandicap loggedEngines exampleCfg 2 true

def loggedRun : Option (Except GExc Unit × GtpGame (Option Str × List Event) Unit × Option Game) :=
  loggedSet.2.run loggedEngines exampleCfg (fun _ => "3.5".toList) 20

theorem aliasesOK_nil : AliasesOK [] := by
  have h : ∀ g ∈ gameNames, ∀ q ∈ queryNames, g ≠ q := by decide +kernel
  exact h

/-- C63: the hypotheses are satisfied, and what is sent to each engine. -/
theorem C63_witness :
    Sound loggedGC ∧ (∀ c, AliasesOK (loggedGC.ctl c).aliases) ∧ loggedPrepared.1 = .ok () ∧
    loggedSet.1 = .ok () ∧ loggedSet.2.runner.handicapStones = some [(0, 0), (0, 2), (2, 0)] ∧
    loggedRun.map (fun x => decide (x.1 = .ok ())) = some true ∧
    loggedRun.map (fun x => gameCommands [] (x.2.1.runner.env.gc.ctl .b).chan.2) = some
      [("boardsize".toList, ["3".toList]), ("clear_board".toList, []), ("komi".toList, ["0.0".toList]), ("place_free_handicap".toList, ["2".toList]),
       ("play".toList, ["w".toList, "pass".toList]), ("genmove".toList, ["b".toList])] ∧
    loggedRun.map (fun x => gameCommands [] (x.2.1.runner.env.gc.ctl .w).chan.2) = some
      [("boardsize".toList, ["3".toList]), ("clear_board".toList, []), ("komi".toList, ["0.0".toList]), ("set_free_handicap".toList, ["A1".toList, "C1".toList, "A3".toList]),
       ("genmove".toList, ["w".toList]), ("play".toList, ["b".toList, "pass".toList])] ∧
    InUse exampleGC ∧ Replies (passer "0") (exampleGC.ctl .b) ("genmove".toList, ["b".toList]) false "pass".toList ∧
    Answers false 3 "Pass".toList (.move none) ∧ Answers true 3 "CLAIM".toList .claim ∧
    Answers false 3 "claim".toList (.forfeit "attempted ill-formed move claim".toList) ∧
    Replies (passer "0") (exampleGC.ctl .b) ("place_free_handicap".toList, ["2".toList]) false "A1 C1 A3".toList ∧
    ListsPoints 3 "A1 C1 A3".toList [(0, 0), (0, 2), (2, 0)] := by
  refine ⟨?_, ?_, by decide +kernel, by decide +kernel, by decide +kernel, by decide +kernel, by decide +kernel, by decide +kernel, ⟨rfl, ?_⟩,
    ⟨some "genmove".toList, none, by decide +kernel, by decide +kernel⟩, .move none (by decide +kernel), .claim rfl (by decide +kernel), ?_,
    ⟨some "place_free_handicap".toList, none, by decide +kernel, by decide +kernel⟩, by unfold ListsPoints; decide +kernel⟩
  · intro c
    exact ⟨rfl, rfl, fun kv h => nomatch h⟩
  · intro c
    exact aliasesOK_nil
  · intro c
    exact ⟨rfl, rfl, fun kv h => nomatch h⟩
  · have h : moveFromVertex "claim".toList ((3 : Nat) : Int) = .error .valueError := by decide +kernel
    have e : "attempted ill-formed move claim".toList = "attempted ill-formed move ".toList ++ "claim".toList := by decide +kernel
    rw [e]
    exact .illFormed (by decide +kernel) (fun hh => nomatch hh) (fun m hm => by rw [h] at hm; cases hm)

end Gomill.Gtp
