import Verif.Lemmas.GtpBackend
/-
C58: running a game between two GTP engines (Gtp_game), whatever the engines do.
C59: scoring by the engines.
-/
namespace Gomill.Gtp
open Py Go

variable {σ τ : Type}
variable {lv : Prop}

/-! ### Before the run -/

/-- What is known of a Gtp_game which is ready to run. -/
structure ReadyInv (lv : Prop) (cfg : GtpCfg τ) (gc0 : GC σ) (g : GtpGame σ τ) : Prop where
  gc : GCOK lv false gc0 g.runner.env.gc
  moves : g.runner.moves = []
  noResult : g.runner.result = none
  noResult' : g.result = none
  size : g.runner.boardSize = cfg.boardSize
  komi : g.runner.komi = cfg.komi
  state : g.runner.state = 1 ∨ g.runner.state = 2
  stones : ∀ p ∈ g.runner.handicapStones.getD [], OnBoard cfg.boardSize p

/-- What holds after part of the preparation: BadGtpResponse is possible, with the controllers as they should be. -/
def PrepPost (lv : Prop) (gc0 : GC σ) {α : Type} (Q : α → Prop) : Except GExc α × GEnv σ τ → Prop
  | (.ok a, env) => GCOK lv false gc0 env.gc ∧ Q a
  | (.error e, env) => e = .backend 0 ∧ GCOK lv false gc0 env.gc ∨ e = .backend 1 ∧ GCBroken gc0 env.gc

theorem GPost.prep {gc0 gc : GC σ} {e : CExc} {env : GEnv σ τ} {α α' : Type} {Q : α' → Prop}
    (h : GPost lv True false gc0 ((.error e, gc) : Except CExc α × GC σ)) :
    PrepPost lv gc0 Q ((.error e.toG, { env with gc := gc }) : Except GExc α' × GEnv σ τ) := by
  cases e with
  | badResponse m g => exact .inl ⟨rfl, h.2⟩
  | channel e => exact .inr ⟨rfl, h.2⟩
  | value => exact h.elim
  | channelIsClosed => exact h.elim

theorem startColour_post (C : Colour → Channel σ) (cfg : GtpCfg τ) (hk : isWellFormedWord cfg.komiText = true) {gc0 gc : GC σ} (c : Colour) (h : GCOK lv false gc0 gc) :
    GPost lv True false gc0 (startColour C cfg c gc) := by
  unfold startColour
  have h1 := send_post C h c (command := "boardsize".toList) (args := [strInt cfg.boardSize])
    ⟨by decide +kernel, by simpa using word_strInt cfg.boardSize⟩
  cases hx : gc.send C c "boardsize".toList [strInt cfg.boardSize] with
  | mk x gc1 =>
    rw [hx] at h1
    cases x with
    | error e => cases e <;> exact h1
    | ok r =>
      simp only
      have h2 := send_post C (o := false) (gc0 := gc0) (gc := gc1) h1 c (command := "clear_board".toList) (args := []) ⟨by decide +kernel, by simp⟩
      cases hy : gc1.send C c "clear_board".toList [] with
      | mk y gc2 =>
        rw [hy] at h2
        cases y with
        | error e => cases e <;> exact h2
        | ok r =>
          simp only
          have h3 := send_post C (o := false) (gc0 := gc0) (gc := gc2) h2 c (command := "komi".toList) (args := [cfg.komiText]) ⟨by decide +kernel, by simpa using hk⟩
          cases hz : gc2.send C c "komi".toList [cfg.komiText] with
          | mk z gc3 =>
            rw [hz] at h3
            cases z with
            | error e => cases e <;> exact h3
            | ok r => exact h3

theorem Sound.usable {gc : GC σ} (h : Sound gc) : Usable gc :=
  fun c => ⟨(h c).1, fun hb => absurd (hb.symm.trans (h c).2.1) (by decide), (h c).2.2⟩

theorem Usable.ok {gc : GC σ} (h : Usable gc) : GCOK (Sound gc) false gc (gc.setCautious false) :=
  ⟨rfl, fun c => ⟨(h c).1, (h c).2.2, fun _ hs => (hs c).2.1, (h c).2.1⟩, rfl, rfl⟩

theorem GCOK.usable {o : Bool} {gc0 gc : GC σ} (h : GCOK lv o gc0 gc) : Usable gc :=
  fun c => ⟨(h.ctl c).opened, (h.ctl c).reported, (h.ctl c).aliases⟩

theorem GCOK.sound {gc0 gc : GC σ} (h : GCOK lv false gc0 gc) (hl : lv) : Sound gc :=
  fun c => ⟨(h.ctl c).opened, (h.ctl c).live rfl hl, (h.ctl c).aliases⟩

theorem startNewGame_prep (C : Colour → Channel σ) (cfg : GtpCfg τ) (hk : isWellFormedWord cfg.komiText = true) (env : GEnv σ τ) (h : Usable env.gc) :
    PrepPost (Sound env.gc) env.gc (fun _ => True) (startNewGame C cfg cfg.boardSize cfg.komi env) := by
  unfold startNewGame
  rw [if_neg (by simp)]
  have h1 := startColour_post C cfg hk .b h.ok
  cases hx : startColour C cfg .b (env.gc.setCautious false) with
  | mk x gc1 =>
    rw [hx] at h1
    cases x with
    | error e => exact GPost.prep h1
    | ok u =>
      have h2 := startColour_post C cfg hk .w (gc0 := env.gc) (gc := gc1) h1
      simp only
      cases hy : startColour C cfg .w gc1 with
      | mk y gc2 =>
        rw [hy] at h2
        cases y with
        | error e => exact GPost.prep h2
        | ok u => exact ⟨h2, trivial⟩

/-- C58: prepare, on a new Gtp_game whose game controller is new or has been used for earlier games: the only exceptions are BadGtpResponse (the controllers can still be used, and
are sound if they were) and GtpChannelError (a channel is bad); in each case the controllers are open, and in normal mode. -/
theorem C58_prepare (C : Colour → Channel σ) (cfg : GtpCfg τ) (hk : isWellFormedWord cfg.komiText = true) (gc : GC σ) (hgc : Usable gc) (user : τ)
    (limit : Option Int) (gameId : Option Str) :
    ∃ r g, (GtpGame.init cfg gc user limit gameId).prepare C cfg = (r, g) ∧ g.runner.env.gc.cautious = false ∧
      (∀ c, (g.runner.env.gc.ctl c).closed = false ∧ ∀ kv ∈ (g.runner.env.gc.ctl c).aliases, isWellFormedWord kv.2 = true) ∧
      (r = .ok () ∧ g.runner.state = 1 ∧ Usable g.runner.env.gc ∧ (Sound gc → Sound g.runner.env.gc) ∨
       r = .error (.backend 0) ∧ Usable g.runner.env.gc ∧ (Sound gc → Sound g.runner.env.gc) ∨
       r = .error (.backend 1) ∧ ∃ c, (g.runner.env.gc.ctl c).bad = true) := by
  have hp := startNewGame_prep C cfg hk ⟨gc, none, user, []⟩ hgc
  unfold GtpGame.prepare Runner.prepare
  simp only [GtpGame.init, Runner.init, ne_eq, not_true_eq_false, if_false, Runner.call]
  change PrepPost (Sound gc) gc _ ((gtpBackend C cfg).startNewGame cfg.boardSize cfg.komi ⟨gc, none, user, []⟩) at hp
  cases hx : (gtpBackend C cfg).startNewGame cfg.boardSize cfg.komi ⟨gc, none, user, []⟩ with
  | mk x env =>
    rw [hx] at hp
    cases x with
    | ok u => exact ⟨_, _, rfl, hp.1.mode, fun c => ⟨(hp.1.ctl c).opened, (hp.1.ctl c).aliases⟩, .inl ⟨rfl, rfl, hp.1.usable, hp.1.sound⟩⟩
    | error e =>
      rcases hp with ⟨rfl, hp⟩ | ⟨rfl, hp⟩
      · exact ⟨_, _, rfl, hp.mode, fun c => ⟨(hp.ctl c).opened, (hp.ctl c).aliases⟩, .inr (.inl ⟨rfl, hp.usable, hp.sound⟩)⟩
      · exact ⟨_, _, rfl, hp.mode, fun c => ⟨hp.opened c, hp.aliases c⟩, .inr (.inr ⟨rfl, hp.bad⟩)⟩

theorem mapM_mem {α β : Type} {f : α → Option β} : ∀ {l : List α} {l' : List β}, l.mapM f = some l' → ∀ y ∈ l', ∃ x ∈ l, f x = some y := by
  intro l
  induction l with
  | nil => intro l' h; simp at h; subst h; simp
  | cons a l ih =>
    intro l' h y hy
    simp only [List.mapM_cons, Option.bind_eq_bind, Option.bind_eq_some_iff, Option.pure_def, Option.some.injEq] at h
    obtain ⟨b, hb, l'', hl, rfl⟩ := h
    rcases List.mem_cons.1 hy with rfl | hy
    · exact ⟨a, List.mem_cons_self, hb⟩
    · obtain ⟨x, hx, h'⟩ := ih hl y hy
      exact ⟨x, List.mem_cons_of_mem _ hx, h'⟩

theorem mapM_length {α β : Type} {f : α → Option β} : ∀ {l : List α} {l' : List β}, l.mapM f = some l' → l'.length = l.length := by
  intro l
  induction l with
  | nil => intro l' h; simp at h; subst h; rfl
  | cons a l ih =>
    intro l' h
    simp only [List.mapM_cons, Option.bind_eq_bind, Option.bind_eq_some_iff, Option.pure_def, Option.some.injEq] at h
    obtain ⟨b, hb, l'', hl, rfl⟩ := h
    simp [ih hl]

theorem readVertices_on {n : Nat} {s : Str} {l : List (Option Pt)} (h : readVertices n s = some l) : ∀ p, some p ∈ l → OnBoard n p := by
  intro p hp
  obtain ⟨x, _, hx⟩ := mapM_mem h _ hp
  split at hx
  · rename_i m hm
    cases hx
    exact moveFromVertex_on hm
  · cases hx

theorem splitOn_ne (c : Char) (s : Str) : splitOn c s ≠ [] := by
  induction s with
  | nil => simp [splitOn]
  | cons x s ih =>
    unfold splitOn
    split
    · simp
    · split <;> simp

theorem readVertices_ne {n : Nat} {s : Str} {l : List (Option Pt)} (h : readVertices n s = some l) : l ≠ [] := by
  have h1 := mapM_length h
  have h2 := splitOn_ne ' ' s
  intro he
  rw [he] at h1
  exact h2 (List.length_eq_zero_iff.1 h1.symm)

theorem setUpdate_le {α : Type} [DecidableEq α] (l : List α) : ∀ s : List α, s.length ≤ (setUpdate s l).length ∧ (setUpdate s l).length ≤ s.length + l.length := by
  induction l with
  | nil => intro s; simp [setUpdate]
  | cons a l ih =>
    intro s
    have h := ih (setAdd s a)
    unfold setUpdate at h ⊢
    rw [List.foldl_cons]
    have h2 : s.length ≤ (setAdd s a).length ∧ (setAdd s a).length ≤ s.length + 1 := by
      unfold setAdd
      split <;> simp
    simp only [List.length_cons]
    omega

/-- len(set(l)) < len(l) is the test for duplicates. -/
theorem setUpdate_nodup {α : Type} [DecidableEq α] (l : List α) : ∀ s : List α, s.length + l.length ≤ (setUpdate s l).length → l.Nodup ∧ ∀ x ∈ l, x ∉ s := by
  induction l with
  | nil => intro s _; simp
  | cons a l ih =>
    intro s h
    have h1 := (setUpdate_le l (setAdd s a)).2
    unfold setUpdate at h h1
    rw [List.foldl_cons] at h
    have hnot : a ∉ s := by
      intro ha
      unfold setAdd at h h1
      rw [if_pos ha] at h h1
      simp only [List.length_cons] at h
      omega
    have h3 := ih (setAdd s a) (by
      have : (setAdd s a).length = s.length + 1 := by
        unfold setAdd
        rw [if_neg hnot]
        simp
      unfold setUpdate
      simp only [List.length_cons] at h
      omega)
    unfold setAdd at h3
    rw [if_neg hnot] at h3
    refine ⟨List.nodup_cons.2 ⟨fun ha => ?_, h3.1⟩, ?_⟩
    · exact h3.2 a ha (by simp)
    · intro x hx
      rcases List.mem_cons.1 hx with rfl | hx
      · exact hnot
      · intro hs
        exact h3.2 x hx (by simp [hs])

theorem filterMap_some_nodup {α : Type} {l : List (Option α)} (h : l.Nodup) : (l.filterMap id).Nodup := by
  refine h.filterMap ?_
  rintro a a' b h1 h2
  simp only [id, Option.mem_def] at h1 h2
  rw [h1, h2]

theorem getFreeHandicap_prep (C : Colour → Channel σ) (cfg : GtpCfg τ) (k : Int) {gc0 : GC σ} (env : GEnv σ τ) (h : GCOK lv false gc0 env.gc) (hh : env.handicap = some k) :
    PrepPost lv gc0 (fun l : List Pt => l ≠ [] ∧ l.Nodup ∧ ∀ p ∈ l, OnBoard cfg.boardSize p) (getFreeHandicap C cfg k env) := by
  unfold getFreeHandicap
  rw [if_neg (by simp [hh])]
  have h1 := send_post C h .b (command := "place_free_handicap".toList) (args := [strInt k]) ⟨by decide +kernel, by simpa using word_strInt k⟩
  cases hx : env.gc.send C .b "place_free_handicap".toList [strInt k] with
  | mk x gc1 =>
    rw [hx] at h1
    cases x with
    | error e => exact GPost.prep h1
    | ok vertices =>
      simp only
      split
      · exact .inl ⟨rfl, h1⟩
      · rename_i points hp
        split
        · exact .inl ⟨rfl, h1⟩
        · rename_i hnone
          split
          · exact .inl ⟨rfl, h1⟩
          · rename_i hlen
            have hnd : points.Nodup := by
              refine (setUpdate_nodup points [] ?_).1
              unfold getFreeHandicap.pointSet at hlen
              simp only [List.length_nil]
              omega
            refine ⟨h1, ?_, filterMap_some_nodup hnd, ?_⟩
            · obtain ⟨m, hm⟩ := List.exists_mem_of_ne_nil _ (readVertices_ne hp)
              cases m with
              | none => exact absurd hm hnone
              | some p =>
                intro he
                have : p ∈ points.filterMap id := List.mem_filterMap.2 ⟨some p, hm, rfl⟩
                rw [he] at this
                cases this
            · intro p hpm
              obtain ⟨m, hm, he⟩ := List.mem_filterMap.1 hpm
              rw [show m = some p from he] at hm
              exact readVertices_on hp p hm

theorem getFreeHandicap_keep (C : Colour → Channel σ) (cfg : GtpCfg τ) (k : Int) (env : GEnv σ τ) : (getFreeHandicap C cfg k env).2.handicap = env.handicap := by
  unfold getFreeHandicap
  split
  · rfl
  · split
    · rfl
    · split
      · rfl
      · split
        · rfl
        · split <;> rfl

theorem notifyFreeHandicap_keep (C : Colour → Channel σ) (l : List Pt) (env : GEnv σ τ) : (notifyFreeHandicap C l env).2.handicap = env.handicap := by
  unfold notifyFreeHandicap
  split
  · rfl
  · split <;> rfl

theorem formatAll {n : Nat} (hn : n ≤ 25) : ∀ {l : List Pt}, (∀ p ∈ l, OnBoard n p) →
    ∃ vs, (l.mapM (fun p => formatVertex (some p)) : Except Exc (List Str)) = .ok vs ∧ ∀ v ∈ vs, isWellFormedWord v = true := by
  intro l
  induction l with
  | nil => intro _; exact ⟨[], rfl, by simp⟩
  | cons p l ih =>
    intro h
    obtain ⟨vs, h1, h2⟩ := ih (fun q hq => h q (List.mem_cons_of_mem _ hq))
    obtain ⟨v, hv⟩ : ∃ v, formatVertex (some p) = .ok v := by
      refine (C14_format_total p).1.1 ?_
      obtain ⟨a1, a2, a3, a4⟩ := h p List.mem_cons_self
      exact ⟨a1, by omega, a3, by omega⟩
    refine ⟨v :: vs, ?_, ?_⟩
    · simp only [List.mapM_cons, hv, h1]
      rfl
    · intro w hw
      rcases List.mem_cons.1 hw with rfl | hw
      · exact word_formatVertex hv
      · exact h2 w hw

theorem notifyFreeHandicap_prep (C : Colour → Channel σ) {n : Nat} (hn : n ≤ 25) (l : List Pt) (hl : ∀ p ∈ l, OnBoard n p) {gc0 : GC σ} (env : GEnv σ τ) (h : GCOK lv false gc0 env.gc) :
    PrepPost lv gc0 (fun _ => True) (notifyFreeHandicap C l env) := by
  unfold notifyFreeHandicap
  obtain ⟨vs, hv, hw⟩ := formatAll hn hl
  rw [hv]
  simp only
  have h1 := send_post C h .w (command := "set_free_handicap".toList) (args := vs) ⟨by decide +kernel, hw⟩
  cases hx : env.gc.send C .w "set_free_handicap".toList vs with
  | mk x gc1 =>
    rw [hx] at h1
    cases x with
    | error e => exact GPost.prep h1
    | ok _ => exact ⟨h1, trivial⟩

theorem notifyFixedHandicap_prep (C : Colour → Channel σ) (cfg : GtpCfg τ) (c : Colour) (k : Int) (l : List Pt) {gc0 : GC σ} (env : GEnv σ τ) (h : GCOK lv false gc0 env.gc)
    (hh : env.handicap = some k) :
    PrepPost lv gc0 (fun _ => True) (notifyFixedHandicap C cfg c k l env) ∧ (notifyFixedHandicap C cfg c k l env).2.handicap = some k := by
  unfold notifyFixedHandicap
  rw [if_neg (by simp [hh])]
  have h1 := send_post C h c (command := "fixed_handicap".toList) (args := [strInt k]) ⟨by decide +kernel, by simpa using word_strInt k⟩
  cases hx : env.gc.send C c "fixed_handicap".toList [strInt k] with
  | mk x gc1 =>
    rw [hx] at h1
    cases x with
    | error e => exact ⟨GPost.prep h1, hh⟩
    | ok vertices =>
      simp only
      split
      · exact ⟨.inl ⟨rfl, h1⟩, hh⟩
      · split
        · exact ⟨⟨h1, trivial⟩, hh⟩
        · exact ⟨.inl ⟨rfl, h1⟩, hh⟩

/-- Changes to the runner which keep the rest of the invariant. -/
theorem ReadyInv.change {cfg : GtpCfg τ} {gc0 : GC σ} {g : GtpGame σ τ} (h : ReadyInv lv cfg gc0 g) {env : GEnv σ τ} (henv : GCOK lv false gc0 env.gc)
    {k : Nat} (hk : k = 1 ∨ k = 2) : ReadyInv lv cfg gc0 { g with runner := { g.runner with env := env, state := k } } :=
  ⟨henv, h.moves, h.noResult, h.noResult', h.size, h.komi, hk, h.stones⟩

/-- set_handicap, on a game which is ready. -/
theorem setHandicap_ready (C : Colour → Channel σ) (cfg : GtpCfg τ) (hn : cfg.boardSize ≤ 25) {gc0 : GC σ} {g : GtpGame σ τ} (h : ReadyInv lv cfg gc0 g) (k : Int) (free : Bool) :
    ∃ r g', g.setHandicap C cfg k free = (r, g') ∧ g'.runner.env.handicap = some k ∧ 
      (r = .error (.backend 1) ∧ GCBroken gc0 g'.runner.env.gc ∧ g.runner.state = 1 ∧ HandicapOK cfg.boardSize k free ∨ ReadyInv lv cfg gc0 g' ∧
        (r = .ok () ∧ g.runner.state = 1 ∧ HandicapOK cfg.boardSize k free ∧ g'.runner.haProp = some k ∧ (∃ l, g'.runner.handicapStones = some l ∧ l ≠ [] ∧ l.Nodup ∧
            (∀ p ∈ l, OnBoard cfg.boardSize p) ∧ (free = false → Handicap.points k cfg.boardSize = .ok l)) ∨
         r = .error .runnerStateError ∧ g.runner.state = 2 ∧ g'.runner.handicapStones = g.runner.handicapStones ∧ g'.runner.env.gc = g.runner.env.gc ∨
         r = .error (.py .valueError) ∧ g.runner.state = 1 ∧ ¬ HandicapOK cfg.boardSize k free ∧ g'.runner.handicapStones = g.runner.handicapStones ∧ g'.runner.env.gc = g.runner.env.gc ∨
         r = .error (.backend 0) ∧ g.runner.state = 1 ∧ HandicapOK cfg.boardSize k free ∧ g'.runner.handicapStones = g.runner.handicapStones)) := by
  unfold GtpGame.setHandicap
  generalize hr : ({ g.runner with env := { g.runner.env with handicap := some k } } : Runner (GEnv σ τ)) = r0
  have hs0 : r0.boardSize = cfg.boardSize := by rw [← hr]; exact h.size
  have he0 : r0.env = { g.runner.env with handicap := some k } := by rw [← hr]
  have hst0 : r0.state = g.runner.state := by rw [← hr]
  have hgc0 : GCOK lv false gc0 r0.env.gc := by rw [he0]; exact h.gc
  have hh0 : r0.env.handicap = some k := by rw [he0]
  have hinv : ReadyInv lv cfg gc0 { g with runner := r0 } := by
    have := h.change (env := { g.runner.env with handicap := some k }) h.gc h.state
    rw [← hr]
    exact this
  by_cases hst : g.runner.state = 1
  · obtain ⟨hbad, hgood⟩ := C31_set_handicap (gtpBackend C cfg) r0 (hst0.trans hst) k free
    rw [hs0] at hbad hgood
    by_cases hok : HandicapOK cfg.boardSize k free
    · obtain ⟨hfree, hfixed⟩ := hgood hok
      cases free with
      | true =>
        obtain ⟨f1, f2, f3⟩ := hfree rfl
        have hp := getFreeHandicap_prep C cfg k r0.env hgc0 hh0
        change PrepPost lv gc0 _ ((gtpBackend C cfg).getFreeHandicap k r0.env) at hp
        have hq := getFreeHandicap_keep C cfg k r0.env
        change ((gtpBackend C cfg).getFreeHandicap k r0.env).2.handicap = _ at hq
        cases hx : (gtpBackend C cfg).getFreeHandicap k r0.env with
        | mk x env =>
          rw [hx] at hp hq
          cases x with
          | error e =>
            rw [f1 e env hx]
            rcases hp with ⟨rfl, hp⟩ | ⟨rfl, hp⟩
            · exact ⟨_, _, rfl, hq.trans hh0, .inr ⟨⟨hp, hinv.moves, hinv.noResult, hinv.noResult', rfl, hinv.komi, .inr rfl, hinv.stones⟩, .inr (.inr (.inr ⟨rfl, hst, hok, by rw [← hr]⟩))⟩⟩
            · exact ⟨_, _, rfl, hq.trans hh0, .inl ⟨rfl, hp, hst, hok⟩⟩
          | ok l =>
            obtain ⟨hp, l1, l2, l3⟩ := hp
            have hp' := notifyFreeHandicap_prep C hn l l3 env hp
            have hq' := notifyFreeHandicap_keep C l env
            change PrepPost lv gc0 _ ((gtpBackend C cfg).notifyFreeHandicap l env) at hp'
            change ((gtpBackend C cfg).notifyFreeHandicap l env).2.handicap = _ at hq'
            cases hy : (gtpBackend C cfg).notifyFreeHandicap l env with
            | mk y env' =>
              rw [hy] at hp' hq'
              cases y with
              | error e =>
                rw [f2 l env e env' hx hy]
                rcases hp' with ⟨rfl, hp'⟩ | ⟨rfl, hp'⟩
                · exact ⟨_, _, rfl, (hq'.trans hq).trans hh0, .inr ⟨⟨hp', hinv.moves, hinv.noResult, hinv.noResult', rfl, hinv.komi, .inr rfl, hinv.stones⟩, .inr (.inr (.inr ⟨rfl, hst, hok, by rw [← hr]⟩))⟩⟩
                · exact ⟨_, _, rfl, (hq'.trans hq).trans hh0, .inl ⟨rfl, hp', hst, hok⟩⟩
              | ok u =>
                rw [f3 l env env' hx hy]
                refine ⟨_, _, rfl, (hq'.trans hq).trans hh0, .inr ⟨?_, .inl ⟨rfl, hst, hok, rfl, l, rfl, l1, l2, l3, by simp⟩⟩⟩
                exact ⟨hp'.1, hinv.moves, hinv.noResult, hinv.noResult', rfl, hinv.komi, .inr rfl, l3⟩
      | false =>
        obtain ⟨l, hl, f1, f2, f3⟩ := hfixed rfl
        obtain ⟨l1, l2, l3⟩ : l ≠ [] ∧ l.Nodup ∧ ∀ p ∈ l, OnBoard cfg.boardSize p := by
          rcases C15_handicap_points k cfg.boardSize with ⟨_, _, h2, _, l', hl', hlen, hnd, hon⟩ | ⟨he, _⟩
          · rw [hl] at hl'
            cases hl'
            refine ⟨?_, hnd, by simpa using hon⟩
            rintro rfl
            simp at hlen
            omega
          · rw [hl] at he; cases he
        obtain ⟨hp, hq⟩ := notifyFixedHandicap_prep C cfg .b k l r0.env hgc0 hh0
        change PrepPost lv gc0 _ ((gtpBackend C cfg).notifyFixedHandicap .b k l r0.env) at hp
        change ((gtpBackend C cfg).notifyFixedHandicap .b k l r0.env).2.handicap = _ at hq
        cases hx : (gtpBackend C cfg).notifyFixedHandicap .b k l r0.env with
        | mk x env =>
          rw [hx] at hp hq
          cases x with
          | error e =>
            rw [f1 e env hx]
            rcases hp with ⟨rfl, hp⟩ | ⟨rfl, hp⟩
            · exact ⟨_, _, rfl, hq, .inr ⟨⟨hp, hinv.moves, hinv.noResult, hinv.noResult', rfl, hinv.komi, .inr rfl, hinv.stones⟩, .inr (.inr (.inr ⟨rfl, hst, hok, by rw [← hr]⟩))⟩⟩
            · exact ⟨_, _, rfl, hq, .inl ⟨rfl, hp, hst, hok⟩⟩
          | ok u =>
            obtain ⟨hp', hq'⟩ := notifyFixedHandicap_prep C cfg .w k l env hp.1 hq
            change PrepPost lv gc0 _ ((gtpBackend C cfg).notifyFixedHandicap .w k l env) at hp'
            change ((gtpBackend C cfg).notifyFixedHandicap .w k l env).2.handicap = _ at hq'
            cases hy : (gtpBackend C cfg).notifyFixedHandicap .w k l env with
            | mk y env' =>
              rw [hy] at hp' hq'
              cases y with
              | error e =>
                rw [f2 env e env' hx hy]
                rcases hp' with ⟨rfl, hp'⟩ | ⟨rfl, hp'⟩
                · exact ⟨_, _, rfl, hq', .inr ⟨⟨hp', hinv.moves, hinv.noResult, hinv.noResult', rfl, hinv.komi, .inr rfl, hinv.stones⟩, .inr (.inr (.inr ⟨rfl, hst, hok, by rw [← hr]⟩))⟩⟩
                · exact ⟨_, _, rfl, hq', .inl ⟨rfl, hp', hst, hok⟩⟩
              | ok u =>
                rw [f3 env env' hx hy]
                refine ⟨_, _, rfl, hq', .inr ⟨?_, .inl ⟨rfl, hst, hok, rfl, l, rfl, l1, l2, l3, fun _ => hl⟩⟩⟩
                exact ⟨hp'.1, hinv.moves, hinv.noResult, hinv.noResult', rfl, hinv.komi, .inr rfl, l3⟩
    · rw [hbad hok]
      exact ⟨_, _, rfl, hh0, .inr ⟨hinv, .inr (.inr (.inl ⟨rfl, hst, hok, by rw [← hr], by rw [he0]⟩))⟩⟩
  · have hst2 : g.runner.state = 2 := h.state.resolve_left hst
    have : r0.setHandicap (gtpBackend C cfg) k free = (.error .runnerStateError, r0) := by
      unfold Runner.setHandicap
      rw [if_pos (by rw [hst0]; exact hst)]
    rw [this]
    exact ⟨_, _, rfl, hh0, .inr ⟨hinv, .inr (.inl ⟨rfl, hst2, by rw [← hr], by rw [he0]⟩)⟩⟩

theorem prepare_ready (C : Colour → Channel σ) (cfg : GtpCfg τ) (hk : isWellFormedWord cfg.komiText = true) (gc : GC σ) (hgc : Usable gc) (user : τ)
    (limit : Option Int) (gameId : Option Str) (g : GtpGame σ τ) (h : (GtpGame.init cfg gc user limit gameId).prepare C cfg = (.ok (), g)) :
    ReadyInv (Sound gc) cfg gc g := by
  have hp := startNewGame_prep C cfg hk ⟨gc, none, user, []⟩ hgc
  unfold GtpGame.prepare Runner.prepare at h
  simp only [GtpGame.init, Runner.init, ne_eq, not_true_eq_false, if_false, Runner.call] at h
  change PrepPost (Sound gc) gc _ ((gtpBackend C cfg).startNewGame cfg.boardSize cfg.komi ⟨gc, none, user, []⟩) at hp
  cases hx : (gtpBackend C cfg).startNewGame cfg.boardSize cfg.komi ⟨gc, none, user, []⟩ with
  | mk x env =>
    rw [hx] at hp h
    cases x with
    | error e => cases h
    | ok u =>
      cases h
      exact ⟨hp.1, rfl, rfl, rfl, rfl, rfl, .inl rfl, by simp⟩

theorem ReadyInv.rebase {cfg : GtpCfg τ} {gc0 : GC σ} {g : GtpGame σ τ} (h : ReadyInv lv cfg gc0 g) : ReadyInv (Sound g.runner.env.gc) cfg g.runner.env.gc g :=
  ⟨⟨h.gc.mode, fun c => ⟨(h.gc.ctl c).opened, (h.gc.ctl c).aliases, fun _ hs => (hs c).2.1, (h.gc.ctl c).reported⟩, rfl, rfl⟩, h.moves, h.noResult, h.noResult', h.size, h.komi, h.state, h.stones⟩

theorem Ready.inv {C : Colour → Channel σ} {cfg : GtpCfg τ} (hk : isWellFormedWord cfg.komiText = true) (hn : cfg.boardSize ≤ 25) {g : GtpGame σ τ}
    (h : Ready C cfg g) : ReadyInv (Sound g.runner.env.gc) cfg g.runner.env.gc g := by
  induction h with
  | prepare gc user limit gameId g hgc hp => exact (prepare_ready C cfg hk gc hgc user limit gameId g hp).rebase
  | handicap g g' k free r _ hs hne ih =>
    obtain ⟨r1, g1, e1, _, e3⟩ := setHandicap_ready C cfg hn ih k free
    rw [hs] at e1
    cases e1
    rcases e3 with ⟨e3, _⟩ | ⟨e3, _⟩
    · exact absurd e3 hne
    · exact e3.rebase

theorem Ready.prepared {C : Colour → Channel σ} {cfg : GtpCfg τ} {g : GtpGame σ τ} (h : Ready C cfg g) : Prepared (gtpBackend C cfg) g.runner := by
  induction h with
  | prepare gc user limit gameId g _ hp =>
    unfold GtpGame.prepare at hp
    simp only [Prod.mk.injEq] at hp
    obtain ⟨_, rfl⟩ := hp
    exact .prepare (.init _ _ _ _)
  | handicap g g' k free r _ hs _ ih =>
    unfold GtpGame.setHandicap at hs
    simp only [Prod.mk.injEq] at hs
    obtain ⟨_, rfl⟩ := hs
    exact .handicap k free (.backend _ ih)

/-- C58: set_handicap, on a prepared game.  It is refused with ValueError exactly if the number of stones isn't acceptable, and with
GameRunnerStateError if it has been called before with an acceptable number: nothing is sent to the engines then.  Otherwise the
only exceptions are BadGtpResponse (the controllers can still be used, and are sound if they were), and GtpChannelError (a channel is bad).  If it succeeds, the stones are different points
on the board, and for a fixed handicap they are the points laid down.  Whatever happens, the number becomes the one used for the handicap compensation. -/
theorem C58_set_handicap (C : Colour → Channel σ) (cfg : GtpCfg τ) (hk : isWellFormedWord cfg.komiText = true) (hn : cfg.boardSize ≤ 25) {g : GtpGame σ τ}
    (hg : Ready C cfg g) (k : Int) (free : Bool) :
    ∃ r g', g.setHandicap C cfg k free = (r, g') ∧ g'.runner.env.handicap = some k ∧ g'.runner.env.gc.cautious = false ∧
      (∀ c, (g'.runner.env.gc.ctl c).closed = false) ∧
      (r ≠ .ok () → g'.runner.handicapStones = g.runner.handicapStones ∨ r = .error (.backend 1)) ∧
      (r = .error .runnerStateError ↔ g.runner.state = 2) ∧
      (r = .error (.py .valueError) ↔ g.runner.state = 1 ∧ ¬ HandicapOK cfg.boardSize k free) ∧
      (r = .error .runnerStateError ∨ r = .error (.py .valueError) → g'.runner.env.gc = g.runner.env.gc) ∧
      (g.runner.state = 1 → HandicapOK cfg.boardSize k free →
        r = .ok () ∧ Usable g'.runner.env.gc ∧ (Sound g.runner.env.gc → Sound g'.runner.env.gc) ∧ g'.runner.haProp = some k ∧ (∃ l, g'.runner.handicapStones = some l ∧ l ≠ [] ∧ l.Nodup ∧
          (∀ p ∈ l, OnBoard cfg.boardSize p) ∧ (free = false → Handicap.points k cfg.boardSize = .ok l)) ∨
        r = .error (.backend 0) ∧ Usable g'.runner.env.gc ∧ (Sound g.runner.env.gc → Sound g'.runner.env.gc) ∨
        r = .error (.backend 1) ∧ ∃ c, (g'.runner.env.gc.ctl c).bad = true) := by
  obtain ⟨r, g', e1, e2, e3⟩ := setHandicap_ready C cfg hn (hg.inv hk hn) k free
  refine ⟨r, g', e1, e2, ?_⟩
  rcases e3 with ⟨rfl, hb, hs, hok⟩ | ⟨hi, h⟩
  · exact ⟨hb.mode, hb.opened, fun _ => .inr rfl, by simp [hs], by simp [hok], by simp, fun _ _ => .inr (.inr ⟨rfl, hb.bad⟩)⟩
  · have hsound := And.intro hi.gc.usable hi.gc.sound
    refine ⟨hi.gc.mode, fun c => (hi.gc.ctl c).opened, ?_⟩
    rcases h with ⟨rfl, hs, hok, h1, h2⟩ | ⟨rfl, hs, h1, h2⟩ | ⟨rfl, hs, hok, h1, h2⟩ | ⟨rfl, hs, hok, h1⟩
    · exact ⟨by simp, by simp [hs], by simp [hok], by simp, fun _ _ => .inl ⟨rfl, hsound.1, hsound.2, h1, h2⟩⟩
    · exact ⟨fun _ => .inl h1, by simp [hs], by simp [hs], fun _ => h2, by simp [hs]⟩
    · exact ⟨fun _ => .inl h1, by simp [hs], by simp [hs, hok], fun _ => h2, fun _ h => absurd h hok⟩
    · exact ⟨fun _ => .inl h1, by simp [hs], by simp [hok], by simp, fun _ _ => .inr (.inl ⟨rfl, hsound⟩)⟩

/-! ### The run -/

theorem makeGame_ok {n : Nat} (hn : 2 ≤ n) {r : Runner σ} (hs : r.boardSize = n) (hp : ∀ p ∈ r.handicapStones.getD [], OnBoard n p) : ∃ g, r.makeGame = .ok g := by
  obtain ⟨b, hb⟩ : ∃ b, Board.init n = .ok b := by
    unfold Board.init
    rw [if_neg (by omega)]
    exact ⟨_, rfl⟩
  unfold Runner.makeGame
  rw [hs, hb]
  simp only
  cases hh : r.handicapStones with
  | none => exact ⟨_, rfl⟩
  | some l =>
    cases l with
    | nil => exact ⟨_, rfl⟩
    | cons p ps =>
      rw [hh] at hp
      have hbr : ReachableBoard n b := ⟨b, [], hb, rfl⟩
      obtain ⟨ok, b', e, _⟩ := C09_apply_setup hbr defaultPops (p :: ps) [] [] (by simpa using hp)
      change b.applySetup (p :: ps) [] [] = _ at e
      simp only
      rw [e]
      exact ⟨_, rfl⟩

theorem cpuTimes_errors (C : Colour → Channel σ) (float : Str → Option Rat) (gc gc' : GC σ) (times : Colour → Option Rat) (errors : List Colour)
    (h : gc.cpuTimes C float = (.ok (times, errors), gc')) : ∀ c ∈ errors, times c = none := by
  have one : ∀ (gc : GC σ) (c : Colour) t gc', gc.cpuTime C float c = (.ok (t, true), gc') → t = none := by
    intro gc c t gc' h
    unfold GC.cpuTime at h
    split at h
    · cases h
    · cases h
    · split at h
      · cases h; rfl
      · cases h
      · cases h; rfl
      · split at h
        · cases h; rfl
        · cases h
  unfold GC.cpuTimes at h
  split at h
  · cases h
  · rename_i tb eb gc1 hb
    split at h
    · cases h
    · rename_i tw ew gc2 hw
      simp only [Prod.mk.injEq, Except.ok.injEq] at h
      obtain ⟨⟨rfl, rfl⟩, _⟩ := h
      intro c hc
      cases c with
      | b =>
        cases eb with
        | true => exact one _ _ _ _ hb
        | false => cases ew <;> simp at hc
      | w =>
        cases ew with
        | true => exact one _ _ _ _ hw
        | false => cases eb <;> simp at hc

/-- Gtp_game.run is Game_runner.run and then the CPU times. -/
theorem gtpRun_cases (C : Colour → Channel σ) (cfg : GtpCfg τ) (fmt : Rat → Str) (fuel : Nat) (g : GtpGame σ τ) (r g' game)
    (h : g.run C cfg fmt fuel = some (r, g', game)) :
    ∃ r1 x, g.runner.run (gtpBackend C cfg) fmt fuel = some (r1, x, game) ∧
      (∀ e, r1 = .error e → r = .error e ∧ g' = { g with runner := x }) ∧
      (r1 = .ok () → ∀ res, x.result = some res → GtpGame.finish C cfg { g with runner := x } res = (r, g')) ∧
      ∃ env, g'.runner = { x with env := env } := by
  unfold GtpGame.run at h
  split at h
  · cases h
  · rename_i e x game' hx
    cases h
    exact ⟨_, x, hx, fun e he => by cases he; exact ⟨rfl, rfl⟩, (fun h => nomatch h), x.env, rfl⟩
  · rename_i x game' hx
    split at h
    · rename_i hn
      cases h
      exact ⟨_, x, hx, (fun _ h => nomatch h), fun _ res hres => (by rw [hn] at hres; cases hres), x.env, rfl⟩
    · rename_i res hres
      simp only [Option.some.injEq, Prod.mk.injEq] at h
      obtain ⟨h1, h2, h3⟩ := h
      subst h3
      refine ⟨_, x, hx, (fun _ h => nomatch h), fun _ res' hres' => ?_, ?_⟩
      · rw [hres] at hres'
        cases hres'
        exact Prod.ext h1 h2
      · subst h2
        unfold GtpGame.finish
        simp only
        split <;> exact ⟨_, rfl⟩

/-- C58: running a game, whatever the engines do.  If no exception is propagated, the game is over, the result is set, for these players and
this game id, the CPU times were asked for, the controllers are open and in cautious mode, and every channel error since the game ended has been recorded.  The list of late errors is as before.  If an exception is
propagated, the result isn't set; the exception isn't BadGtpResponse, and one of these is the case: it is GtpChannelError, the game
wasn't over, and the channel is bad; or it came from the after-move callback; or the engines were asked for the score, and said that the margin was an infinity or a NaN. -/
theorem C58_run (C : Colour → Channel σ) (cfg : GtpCfg τ) (hk : isWellFormedWord cfg.komiText = true) (hn : 2 ≤ cfg.boardSize ∧ cfg.boardSize ≤ 25)
    (fmt : Rat → Str) {g : GtpGame σ τ} (hg : Ready C cfg g) (fuel : Nat) (r : Except GExc Unit) (g' : GtpGame σ τ) (game : Option Game)
    (hrun : g.run C cfg fmt fuel = some (r, g', game)) :
    ∃ gm, game = some gm ∧ (∀ c, (g'.runner.env.gc.ctl c).closed = false ∧ ∀ kv ∈ (g'.runner.env.gc.ctl c).aliases, isWellFormedWord kv.2 = true) ∧
      (g'.runner.env.gc.code = g.runner.env.gc.code ∧ g'.runner.env.gc.lateErrors = g.runner.env.gc.lateErrors) ∧
      (r = .ok () → gm.isOver = true ∧ g'.runner.env.gc.cautious = true ∧ Usable g'.runner.env.gc ∧
        ∃ res rr errors, g'.result = some res ∧ g'.runner.result = some rr ∧ g'.cpuTimeErrors = some errors ∧
          MadeResult fmt res ∧ res.gameId = g.gameId ∧ res.playerB = g.runner.env.gc.code .b ∧ res.playerW = g.runner.env.gc.code .w ∧
          res.res.winningColour = rr.winningColour ∧ res.res.sgfResult = rr.sgfResult ∧ res.res.isForfeit = rr.isForfeit ∧
          (res.playerB ≠ res.playerW → ∀ c ∈ errors, res.cpuTimes.lookup (res.playerOf c) = some .none)) ∧
      (∀ e, r = .error e → g'.result = none ∧
        (e = .backend 1 ∧ gm.isOver = false ∧ (∃ c, (g'.runner.env.gc.ctl c).bad = true) ∨
         (∃ k c m b u, e = .backend (k + 3) ∧ (cfg.callback c m b u).1 = .error k ∧ (∀ p, m = some p → OnBoard cfg.boardSize p) ∧ BoardInv cfg.boardSize b) ∨
         gm.isOver = true ∧ cfg.internal = false ∧ ∃ c s w x, (c, s) ∈ g'.runner.env.scores ∧ Says cfg.float s (some w) (some x) ∧
           (x = .inf ∧ e = .overflowError ∨ x = .nan ∧ e = .py .valueError))) := by
  have hi := hg.inv hk hn.2
  obtain ⟨r1, x, h1, h2, h3, env', h4⟩ := gtpRun_cases C cfg fmt fuel g r g' game hrun
  obtain ⟨gm, k1, k2⟩ := run_keeps (gtp_keeps C cfg g.runner.env.gc fmt hn.2) ⟨hi.moves, hi.noResult⟩ hi.size hn.2 hi.gc hi.state
    (makeGame_ok hn.1 hi.size hi.stones) fuel _ h1
  simp only at k1 k2
  refine ⟨gm, k1, ?_⟩
  cases r1 with
  | error e =>
    obtain ⟨rfl, rfl⟩ := h2 e rfl
    simp only at k2
    obtain ⟨hE, _⟩ := k2
    have base : (∀ c, (x.env.gc.ctl c).closed = false ∧ ∀ kv ∈ (x.env.gc.ctl c).aliases, isWellFormedWord kv.2 = true) ∧
        x.env.gc.code = g.runner.env.gc.code ∧ x.env.gc.lateErrors = g.runner.env.gc.lateErrors := by
      rcases hE with ⟨_, _, hb⟩ | ⟨_, _, _, _, _, _, _, _, hb⟩ | ⟨_, _, hb, _⟩
      · exact ⟨fun c => ⟨hb.opened c, hb.aliases c⟩, hb.code, hb.late⟩
      · exact ⟨fun c => ⟨(hb.ctl c).opened, (hb.ctl c).aliases⟩, hb.code, hb.late⟩
      · exact ⟨fun c => ⟨(hb.ctl c).opened, (hb.ctl c).aliases⟩, hb.code, hb.late⟩
    refine ⟨base.1, base.2, (fun h => nomatch h), ?_⟩
    rintro e' he
    cases he
    refine ⟨hi.noResult', ?_⟩
    rcases hE with ⟨q1, q2, hb⟩ | ⟨k, c, m, b, u, q1, q2, q2', hb⟩ | ⟨q1, q2, hb, q3⟩
    · exact .inl ⟨q1, q2, hb.bad⟩
    · exact .inr (.inl ⟨k, c, m, b, u, q1, q2, q2'⟩)
    · exact .inr (.inr ⟨q1, q2, q3⟩)
  | ok u =>
    simp only at k2
    obtain ⟨ho, hI, hne⟩ := k2
    obtain ⟨rr, hrr⟩ := Option.ne_none_iff_exists'.1 hne
    have hf := h3 rfl rr hrr
    have hmade : ∀ b w, MadeResult fmt (.setPlayers rr b w) := by
      intro b w
      obtain ⟨_, _, hok⟩ := C31_run (gtpBackend C cfg) fmt g.runner hg.prepared (by rw [hi.size]; exact hn.2) fuel _ x game h1
      obtain ⟨b0, h, e, g2, _, hgm, _, hpl, hov, rr', hrr', hp1, hp2⟩ := hok rfl
      rw [hrr] at hrr'
      cases hrr'
      cases hpo : g2.passedOut with
      | true =>
        obtain ⟨sc, env, _, _, hsc⟩ := hp1 hpo
        exact .scored b w hsc
      | false => exact .unscored b w (hp2 hpo).1
    obtain ⟨times, errors, gc', e1, e2⟩ := cpuTimes_post C cfg.cpuFloat hI
    have e3 := cpuTimes_errors C cfg.cpuFloat _ _ times errors e1
    unfold GtpGame.finish at hf
    simp only [e1, Prod.mk.injEq] at hf
    obtain ⟨rfl, rfl⟩ := hf
    simp only
    refine ⟨fun c => ⟨(e2.ctl c).opened, (e2.ctl c).aliases⟩, ⟨e2.code, e2.late⟩, fun _ => ⟨ho, e2.mode, e2.usable, ?_⟩, (fun _ h => nomatch h)⟩
    have hcode := hI.code
    generalize hres0 : ({ GameResult.setPlayers rr (x.env.gc.code .b) (x.env.gc.code .w) with gameId := g.gameId } : GameResult) = res0
    have m0 : MadeResult fmt res0 := by rw [← hres0]; exact .gameId _ (hmade _ _)
    have step : ∀ (r0 : GameResult) (c : Colour), MadeResult fmt r0 → ∃ r1, (match times c with | some q => r0.softUpdate1 c (.secs q) | none => r0) = r1 ∧ MadeResult fmt r1 ∧
        ({ r1 with cpuTimes := r0.cpuTimes } : GameResult) = r0 ∧ (∀ p, p ≠ r0.playerOf c ∨ times c = none → r1.cpuTimes.lookup p = r0.cpuTimes.lookup p) := by
      intro r0 c hm
      obtain ⟨_, hcpu⟩ := C30_cpu_times fmt
      cases ht : times c with
      | none => exact ⟨r0, rfl, hm, rfl, fun _ _ => rfl⟩
      | some q =>
        obtain ⟨_, c2, c3⟩ := hcpu r0 hm c (.secs q)
        refine ⟨_, rfl, .cpuTime c _ hm (by simp), c3, fun p hp => ?_⟩
        rcases hp with hp | hp
        · exact c2 p hp
        · cases hp
    obtain ⟨r1, d1, m1, s1, t1⟩ := step res0 .b m0
    obtain ⟨r2, d2, m2, s2, t2⟩ := step r1 .w m1
    refine ⟨r2, rr, errors, ?_, hrr, rfl, m2, ?_⟩
    · clear t1 t2 s1 s2 m1 m2
      cases hb : times .b <;> cases hw : times .w <;> simp only [hb] at d1 <;> simp only [hw] at d2 <;> subst d1 <;> subst d2 <;> simp only [hres0]
    · have f1 := congrArg (fun r : GameResult => (r.gameId, r.playerB, r.playerW, r.res)) s1
      have f2 := congrArg (fun r : GameResult => (r.gameId, r.playerB, r.playerW, r.res)) s2
      simp only [Prod.mk.injEq] at f1 f2
      obtain ⟨a1, a2, a3, a4⟩ := f1
      obtain ⟨b1, b2, b3, b4⟩ := f2
      have z : res0.gameId = g.gameId ∧ res0.playerB = g.runner.env.gc.code .b ∧ res0.playerW = g.runner.env.gc.code .w ∧
          res0.res.winningColour = rr.winningColour ∧ res0.res.sgfResult = rr.sgfResult ∧ res0.res.isForfeit = rr.isForfeit := by
        rw [← hres0, hcode]
        exact ⟨rfl, rfl, rfl, rfl, rfl, rfl⟩
      rw [b1, b2, b3, b4, a1, a2, a3, a4]
      refine ⟨z.1, z.2.1, z.2.2.1, z.2.2.2.1, z.2.2.2.2.1, z.2.2.2.2.2, ?_⟩
      intro hne c hc
      have hp0 : ∀ c, r1.playerOf c = res0.playerOf c := by intro c; cases c <;> simp [GameResult.playerOf, a2, a3]
      have hp1 : ∀ c, r2.playerOf c = res0.playerOf c := by intro c; cases c <;> simp [GameResult.playerOf, a2, a3, b2, b3]
      have hnone : res0.cpuTimes.lookup (res0.playerOf c) = some .none := by
        have := (C30_cpu_times fmt).1 rr (x.env.gc.code .b) (x.env.gc.code .w) c
        rw [← hres0]
        exact this
      have hd : res0.playerOf c ≠ res0.playerOf c.opponent := by
        cases c
        · exact hne
        · exact fun h => hne h.symm
      rw [hp1, t2, t1, hnone]
      · cases c with
        | b => exact .inr (e3 _ hc)
        | w => exact .inl hd
      · rw [hp0]
        cases c with
        | b => exact .inl hd
        | w => exact .inr (e3 _ hc)

/-- C58: with a move limit the run finishes, whatever the engines do. -/
theorem C58_terminates (C : Colour → Channel σ) (cfg : GtpCfg τ) (hk : isWellFormedWord cfg.komiText = true) (hn : cfg.boardSize ≤ 25)
    (fmt : Rat → Str) {g : GtpGame σ τ} (hg : Ready C cfg g) (lim : Int) (hlim : g.runner.moveLimit = some lim) (fuel : Nat) (hf : max lim.toNat 1 ≤ fuel) :
    ∃ x, g.run C cfg fmt fuel = some x := by
  have hi := hg.inv hk hn
  obtain ⟨⟨r, x, gm⟩, hx⟩ := C31_terminates (gtpBackend C cfg) fmt g.runner hg.prepared (by rw [hi.size]; exact hn) lim hlim fuel hf
  unfold GtpGame.run
  rw [hx]
  cases r with
  | error e => exact ⟨_, rfl⟩
  | ok u =>
    simp only
    cases x.result <;> exact ⟨_, rfl⟩

/-- C58: the moves recorded (even if there was an exception) are those of a game played by the rules from the handicap position, except that a last move which
the opponent refused is left out. -/
theorem C58_moves (C : Colour → Channel σ) (cfg : GtpCfg τ) (hk : isWellFormedWord cfg.komiText = true) (hn : cfg.boardSize ≤ 25)
    (fmt : Rat → Str) {g : GtpGame σ τ} (hg : Ready C cfg g) (fuel : Nat) (r : Except GExc Unit) (g' : GtpGame σ τ) (game : Option Game)
    (hrun : g.run C cfg fmt fuel = some (r, g', game)) :
    movesOf g'.runner = [] ∨ ∃ b0 first h e gm, StartBoard g.runner b0 ∧
        first = (if g.runner.handicapStones.getD [] = [] then .b else .w) ∧
        Played g.runner.boardSize b0 first g.runner.moveLimit h e gm ∧
        (movesOf g'.runner = h ∨ ∃ m c x, h = movesOf g'.runner ++ [m] ∧ e = some (.forfeited c x)) := by
  have hi := hg.inv hk hn
  obtain ⟨r1, x, h1, _, _, env', h4⟩ := gtpRun_cases C cfg fmt fuel g r g' game hrun
  obtain ⟨h, _, _⟩ := C31_run (gtpBackend C cfg) fmt g.runner hg.prepared (by rw [hi.size]; exact hn) fuel r1 x game h1
  have : movesOf g'.runner = movesOf x := by rw [h4]; rfl
  rw [this]
  exact h

/-! ### Closing the engines -/

theorem safeDoCommand_aliases (C : Channel σ) (c : Ctl σ) (command : Str) (args : List Str) : (c.safeDoCommand C command args).2.errors.take c.errors.length = c.errors := by
  have h : ∀ x : Except CExc Str × Ctl σ, x = c.doCommand C command args → x.2.errors = c.errors := by
    rintro x rfl
    unfold Ctl.doCommand
    split
    · rfl
    · simp only
      split
      · rfl
      · split
        · rfl
        · split
          · rfl
          · split <;> rfl
  have hd := h _ rfl
  unfold Ctl.safeDoCommand
  split
  · simp
  · rcases hx : c.doCommand C command args with ⟨y, c'⟩
    rw [hx] at hd
    simp only at hd
    cases y with
    | ok r => simp [hd]
    | error e => cases e <;> simp [hd]

/-- safe_close on a controller whose aliases are well-formed: it doesn't raise, and the controller is closed afterwards. -/
theorem safeClose_ok (C : Channel σ) (c : Ctl σ) (ha : ∀ kv ∈ c.aliases, isWellFormedWord kv.2 = true) :
    ∃ c', c.safeClose C = (.ok (), c') ∧ c'.closed = true ∧ c.errors <+: c'.errors ∧ (c.closed = true → c' = c) ∧
      ((c.bad = true → c.errors ≠ []) → c'.bad = true → c'.errors ≠ []) := by
  have herr := safeClose_errors C c
  suffices h : ∃ c', c.safeClose C = (.ok (), c') ∧ c'.closed = true ∧ c.errors <+: c'.errors ∧ (c.closed = true → c' = c) by
    obtain ⟨c', h1, h2, h3, h4⟩ := h
    rw [h1] at herr
    exact ⟨c', h1, h2, h3, h4, herr⟩
  unfold Ctl.safeClose
  cases hc : c.closed with
  | true => exact ⟨c, rfl, hc, List.prefix_refl _, fun _ => rfl⟩
  | false =>
    have hq : ∃ c1, c.safeQuit C = (.ok (), c1) ∧ c.errors <+: c1.errors := by
      unfold Ctl.safeQuit
      split
      · exact ⟨c, rfl, List.prefix_refl _⟩
      · have hw : WordsOK c "quit".toList [] := ⟨word_translate ha (by decide +kernel), by simp⟩
        have h3 := (C57_safe_do_command C c "quit".toList []).2.2
        have h4 := safeDoCommand_aliases C c "quit".toList []
        rcases hx : c.safeDoCommand C "quit".toList [] with ⟨y, c1⟩
        rw [hx] at h3 h4
        have hpre : c.errors <+: c1.errors := by
          simp only at h4
          rw [← h4]
          exact List.take_prefix _ _
        cases y with
        | ok r => exact ⟨c1, rfl, hpre⟩
        | error e =>
          rcases h3 e rfl with ⟨m, g, rfl⟩ | ⟨_, hbad⟩
          · exact ⟨_, rfl, hpre.trans (List.prefix_append _ _)⟩
          · exact absurd hw hbad
    obtain ⟨c1, h1, h2⟩ := hq
    simp only [Bool.false_eq_true, if_false, h1]
    rcases hx : C.close c1.chan with ⟨y, ch⟩
    cases y with
    | none => exact ⟨_, rfl, rfl, h2, (fun h => nomatch h)⟩
    | some msg => exact ⟨_, rfl, rfl, h2.trans (List.prefix_append _ _), (fun h => nomatch h)⟩

/-- C58: close_players never raises, whatever the engines do, and afterwards both controllers are closed.  All the messages the controllers have set aside
are late errors, Black's first, after any earlier ones; a channel which has failed in cautious mode always shows up in describe_late_errors. -/
theorem C58_close_players (C : Colour → Channel σ) (gc : GC σ) (ha : ∀ c, ∀ kv ∈ (gc.ctl c).aliases, isWellFormedWord kv.2 = true) :
    ∃ gc', gc.closePlayers C = (.ok (), gc') ∧ (∀ c, (gc'.ctl c).closed = true) ∧ gc'.code = gc.code ∧ gc'.cautious = gc.cautious ∧
      (∀ c, (gc.ctl c).errors <+: (gc'.ctl c).errors) ∧
      gc'.lateErrors = gc.lateErrors ++ (gc'.ctl .b).errors ++ (gc'.ctl .w).errors ∧
      (gc'.describeLateErrors = none ↔ gc'.lateErrors = []) ∧
      ((∀ c, (gc.ctl c).bad = true → (gc.ctl c).errors ≠ []) → (∃ c, (gc'.ctl c).bad = true) → gc'.describeLateErrors ≠ none) := by
  obtain ⟨b, b1, b2, b3, _, b5⟩ := safeClose_ok (C .b) (gc.ctl .b) (ha .b)
  obtain ⟨w, w1, w2, w3, _, w5⟩ := safeClose_ok (C .w) (gc.ctl .w) (ha .w)
  have e1 : gc.closePlayer C .b = (.ok (), { gc.set .b b with lateErrors := gc.lateErrors ++ b.errors }) := by
    unfold GC.closePlayer; rw [b1]
  have e2 : ({ gc.set .b b with lateErrors := gc.lateErrors ++ b.errors } : GC σ).closePlayer C .w =
      (.ok (), { ({ gc.set .b b with lateErrors := gc.lateErrors ++ b.errors } : GC σ).set .w w with lateErrors := gc.lateErrors ++ b.errors ++ w.errors }) := by
    unfold GC.closePlayer
    have : ({ gc.set .b b with lateErrors := gc.lateErrors ++ b.errors } : GC σ).ctl .w = gc.ctl .w := by simp [GC.set]
    rw [this, w1]
  unfold GC.closePlayers
  rw [e1]
  simp only
  rw [e2]
  have hlate : ∀ gc' : GC σ, gc'.describeLateErrors = none ↔ gc'.lateErrors = [] := by
    intro gc'
    unfold GC.describeLateErrors
    split <;> simp [*]
  refine ⟨_, rfl, ?_, rfl, rfl, ?_, ?_, hlate _, ?_⟩
  · intro c; cases c <;> simp [GC.set, b2, w2]
  · intro c; cases c <;> simp [GC.set, b3, w3]
  · simp [GC.set]
  · rintro h1 ⟨c, hc⟩ h2
    rw [hlate] at h2
    simp only [List.append_eq_nil_iff] at h2
    cases c with
    | b => exact b5 (h1 .b) (by simpa [GC.set] using hc) h2.1.2
    | w => exact w5 (h1 .w) (by simpa [GC.set] using hc) h2.2

/-! ### Scoring by the engines -/

theorem ask_scorers (C : Colour → Channel σ) : ∀ (cs : List Colour) (gc gc' : GC σ) (raw : List (Colour × Str)),
    askScorers C cs gc = (.ok raw, gc') → (raw.map Prod.fst).Sublist cs := by
  intro cs
  induction cs with
  | nil => intro gc gc' raw h; cases h; simp
  | cons c cs ih =>
    intro gc gc' raw h
    unfold askScorers at h
    split at h
    · cases h
    · rename_i r gc1 _
      split at h
      · cases h
      · rename_i l gc2 h2
        cases h
        cases r with
        | none => exact List.Sublist.cons _ (ih _ _ _ h2)
        | some s => exact List.Sublist.cons₂ _ (ih _ _ _ h2)

/-- C59: the score of a game scored by the engines, in terms of the responses to final_score (of the allowed scorers, in order, each at most once).  A
player wins exactly if every response which says anything says so; it is a jigo exactly if they all say that; the scorers disagree exactly if
two responses say different things.  The margin is the one all those responses give (a NaN only if there is just one such response); if they
differ, or the scorers disagree, there isn't any. -/
theorem C59_score (C : Colour → Channel σ) (cfg : GtpCfg τ) (env env' : GEnv σ τ) (score : GameScore) (h : scoreGameGtp C cfg env = (.ok score, env')) :
    (env'.scores.map Prod.fst).Sublist cfg.scorers ∧
    let said := env'.scores.map Prod.snd
    (∀ c, score.winner = some c ↔ Unanimous cfg.float said (some c)) ∧
    (score.margin = some (.fin 0) ↔ Unanimous cfg.float said none) ∧
    (score.scorersDisagreed = true ↔ ∃ r ∈ said, ∃ r' ∈ said, ∃ w m w' m', Says cfg.float r w m ∧ Says cfg.float r' w' m' ∧ w ≠ w') ∧
    (score.scorersDisagreed = true → score.winner = none ∧ score.margin = none) ∧
    (∀ c m, m ≠ .nan → (score.winner = some c ∧ score.margin = some m ↔
      Unanimous cfg.float said (some c) ∧ ∀ r ∈ said, ∀ w m', Says cfg.float r w m' → m' = some m)) := by
  unfold scoreGameGtp at h
  split at h
  · cases h
  · rename_i raw gc hask
    simp only at h
    rw [consensus_make] at h
    simp only [Prod.mk.injEq, Except.ok.injEq] at h
    obtain ⟨rfl, rfl⟩ := h
    refine ⟨ask_scorers C _ _ _ _ hask, ?_⟩
    simp only
    generalize hv : raw.filterMap (fun x => readScore cfg.float x.2) = votes
    have hvotes : ∀ w m, (w, m) ∈ votes ↔ ∃ r ∈ raw.map Prod.snd, Says cfg.float r w m := by
      intro w m; rw [← hv]; exact votes_spec cfg.float raw w m
    have hjigo : ∀ m, (none, m) ∈ votes → m = some (.fin 0) := by
      intro m hm
      obtain ⟨r, _, hs⟩ := (hvotes none m).1 hm
      exact hs.2
    have hwin : ∀ c x, (some c, some x) ∈ votes → x.isZero = false := by
      intro c x hm
      obtain ⟨r, _, hs⟩ := (hvotes (some c) (some x)).1 hm
      exact (says_win_margin hs).2
    generalize raw.map Prod.snd = said at hvotes ⊢
    have hun : ∀ w, Unanimous cfg.float said w ↔ votes ≠ [] ∧ ∀ v ∈ votes, v.1 = w := by
      intro w
      constructor
      · rintro ⟨⟨r, hr, m, hs⟩, hall⟩
        refine ⟨List.ne_nil_of_mem ((hvotes w m).2 ⟨r, hr, hs⟩), ?_⟩
        rintro ⟨w', m'⟩ hv'
        obtain ⟨r', hr', hs'⟩ := (hvotes w' m').1 hv'
        exact hall r' hr' w' m' hs'
      · rintro ⟨hne, hall⟩
        obtain ⟨⟨w', m'⟩, hv'⟩ := List.exists_mem_of_ne_nil _ hne
        obtain ⟨r', hr', hs'⟩ := (hvotes w' m').1 hv'
        have : w' = w := hall _ hv'
        subst this
        refine ⟨⟨r', hr', m', hs'⟩, ?_⟩
        intro r hr w m hs
        exact hall _ ((hvotes w m).2 ⟨r, hr, hs⟩)
    have hdis : (∃ r ∈ said, ∃ r' ∈ said, ∃ w m w' m', Says cfg.float r w m ∧ Says cfg.float r' w' m' ∧ w ≠ w') ↔ ∃ v ∈ votes, ∃ v' ∈ votes, v.1 ≠ v'.1 := by
      constructor
      · rintro ⟨r, hr, r', hr', w, m, w', m', h1, h2, h3⟩
        exact ⟨(w, m), (hvotes w m).2 ⟨r, hr, h1⟩, (w', m'), (hvotes w' m').2 ⟨r', hr', h2⟩, h3⟩
      · rintro ⟨⟨w, m⟩, hv, ⟨w', m'⟩, hv', h3⟩
        obtain ⟨r, hr, h1⟩ := (hvotes w m).1 hv
        obtain ⟨r', hr', h2⟩ := (hvotes w' m').1 hv'
        exact ⟨r, hr, r', hr', w, m, w', m', h1, h2, h3⟩
    have hmar : ∀ m, (∀ r ∈ said, ∀ w m', Says cfg.float r w m' → m' = some m) ↔ ∀ v ∈ votes, v.2 = some m := by
      intro m
      constructor
      · rintro hh ⟨w, m'⟩ hv
        obtain ⟨r, hr, h1⟩ := (hvotes w m').1 hv
        exact hh r hr w m' h1
      · intro hh r hr w m' hs
        exact hh _ ((hvotes w m').2 ⟨r, hr, hs⟩)
    simp only [hun, hdis, hmar]
    obtain ⟨c1, c2, c3⟩ := consensus_spec votes
    rcases Classical.em (votes = []) with hne | hne
    · have hc := c2 hne
      subst hne
      rw [hc]
      simp
    · rcases Classical.em (∃ v ∈ votes, ∃ v' ∈ votes, v.1 ≠ v'.1) with hd | hd
      · have hc := c3 hd
        rw [hc]
        have hno : ∀ w, ¬ ∀ v ∈ votes, v.1 = w := by
          intro w hall
          obtain ⟨v, hv, v', hv', hvv⟩ := hd
          exact hvv ((hall v hv).trans (hall v' hv').symm)
        refine ⟨?_, ?_, ?_, ?_, ?_⟩
        · intro c; exact ⟨(fun h => nomatch h), fun h => absurd h.2 (hno _)⟩
        · exact ⟨(fun h => nomatch h), fun h => absurd h.2 (hno _)⟩
        · simp only [true_iff]; exact hd
        · simp
        · intro c m _; exact ⟨(fun h => nomatch h.1), fun h => absurd h.1.2 (hno _)⟩
      · have hd' := hd
        push Not at hd'
        obtain ⟨⟨w, m0⟩, hv0⟩ := List.exists_mem_of_ne_nil _ hne
        have hall : ∀ v ∈ votes, v.1 = w := fun v hv => (hd' _ hv0 v hv).symm
        obtain ⟨k1, k2, k3⟩ := c1 w ⟨hne, hall⟩
        have huniq : ∀ w', (votes ≠ [] ∧ ∀ v ∈ votes, v.1 = w') ↔ w' = w := by
          intro w'
          constructor
          · rintro ⟨_, hh⟩; exact (hh _ hv0).symm
          · rintro rfl; exact ⟨hne, hall⟩
        rw [k1, k2]
        refine ⟨?_, ?_, ?_, by simp, ?_⟩
        · intro c
          rw [huniq]
          exact eq_comm
        · rw [huniq, k3]
          constructor
          · rintro ⟨⟨_, hh⟩, _⟩
            cases w with
            | none => rfl
            | some c =>
              have : m0 = some (.fin 0) := hh _ hv0
              rw [this] at hv0
              exact absurd (hwin c _ hv0) (by simp [Num.isZero])
          · intro hw
            refine ⟨⟨hne, ?_⟩, by simp⟩
            rintro ⟨w', m'⟩ hv'
            have : w' = none := (hall _ hv').trans hw.symm
            rw [this] at hv'
            exact hjigo m' hv'
        · simp only [Bool.false_eq_true, false_iff]; exact hd
        · intro c m hnan
          rw [huniq, k3]
          constructor
          · rintro ⟨h1, ⟨_, h2⟩, _⟩; exact ⟨h1.symm, h2⟩
          · rintro ⟨h1, h2⟩; exact ⟨h1.symm, ⟨hne, h2⟩, fun h => absurd h hnan⟩

/-- C59: the result made from such a score: the winner's letter and the margin, if there is one; "0" for a jigo; "?" if the scorers disagree
or don't say anything.  It is an error only if the margin is an infinity or a NaN. -/
theorem C59_result (C : Colour → Channel σ) (cfg : GtpCfg τ) (fmt : Rat → Str) (env env' : GEnv σ τ) (score : GameScore)
    (h : scoreGameGtp C cfg env = (.ok score, env')) :
    let said := env'.scores.map Prod.snd
    (∀ c, Unanimous cfg.float said (some c) → score.margin = none → ∃ r, Res.fromGameScore fmt score = .ok r ∧ r.winningColour = some c ∧ r.isJigo = false ∧
      r.sgfResult = [c.upper, '+'] ∧ r.detail = some "unknown margin".toList) ∧
    (∀ c q, Unanimous cfg.float said (some c) → score.margin = some (.fin q) → ∃ r t, Res.fromGameScore fmt score = .ok r ∧ r.winningColour = some c ∧ r.isJigo = false ∧
      formatFloat fmt (.fin q) = .ok t ∧ r.sgfResult = [c.upper, '+'] ++ t ∧ r.detail = none) ∧
    (Unanimous cfg.float said none → ∃ r, Res.fromGameScore fmt score = .ok r ∧ r.winningColour = none ∧ r.isJigo = true ∧ r.sgfResult = "0".toList ∧ r.detail = none) ∧
    ((∀ w, ¬ Unanimous cfg.float said w) → ∃ r, Res.fromGameScore fmt score = .ok r ∧ r.winningColour = none ∧ r.isJigo = false ∧ r.sgfResult = "?".toList ∧
      r.detail = some (if score.scorersDisagreed then "players disagreed".toList else "no score reported".toList)) := by
  intro said
  obtain ⟨_, w1, w2, w3, w4, _⟩ := C59_score C cfg env env' score h
  have hm : (∀ c x, score.winner = some c → score.margin = some x → x.isNeg = false ∧ x.isZero = false) ∧
      (∀ x, score.winner = none → score.margin = some x → x = .fin 0) := by
    unfold scoreGameGtp at h
    split at h
    · cases h
    · rename_i raw gc hask
      simp only at h
      rw [consensus_make] at h
      simp only [Prod.mk.injEq, Except.ok.injEq] at h
      obtain ⟨rfl, rfl⟩ := h
      obtain ⟨h1, h2⟩ := consensus_margin cfg.float raw
      refine ⟨fun c x hc hx => ?_, h2⟩
      obtain ⟨p, _, hs⟩ := h1 c x hc hx
      exact says_win_margin hs
  have hagree : ∀ w, Unanimous cfg.float said w → score.scorersDisagreed = false := by
    intro w hu
    cases hd : score.scorersDisagreed with
    | false => rfl
    | true =>
      obtain ⟨r, hr, r', hr', w1, m1, w2, m2, s1, s2, hne⟩ := w3.1 hd
      exact absurd ((hu.2 r hr w1 m1 s1).trans (hu.2 r' hr' w2 m2 s2).symm) hne
  obtain ⟨winner, margin, dis⟩ := score
  simp only at w1 w2 w3 w4 hm hagree
  refine ⟨?_, ?_, ?_, ?_⟩
  · rintro c hu rfl
    have hw := (w1 c).2 hu
    have hd := hagree _ hu
    subst hw hd
    exact ⟨_, rfl, rfl, rfl, rfl, rfl⟩
  · rintro c q hu rfl
    have hw := (w1 c).2 hu
    have hd := hagree _ hu
    subst hw hd
    obtain ⟨k1, k2⟩ := hm.1 c _ rfl rfl
    unfold Res.fromGameScore Res.fromScore
    simp only [k1, k2, Bool.false_eq_true, if_false, formatFloat]
    exact ⟨_, _, rfl, rfl, rfl, rfl, rfl, rfl⟩
  · intro hu
    have hmz := w2.2 hu
    have hd := hagree _ hu
    subst hmz hd
    have hw : winner = none := by
      cases winner with
      | none => rfl
      | some c => exact absurd (hm.1 c _ rfl rfl).2 (by simp [Num.isZero])
    subst hw
    unfold Res.fromGameScore Res.fromScore
    simp only [Num.isNeg, Num.isZero, lt_irrefl, decide_false, decide_true, Bool.false_eq_true, if_false, if_true]
    exact ⟨_, rfl, rfl, rfl, rfl, rfl⟩
  · intro hno
    have hw : winner = none := by
      cases winner with
      | none => rfl
      | some c => exact absurd ((w1 c).1 rfl) (hno _)
    subst hw
    have hmn : margin = none := by
      cases margin with
      | none => rfl
      | some x =>
        have := hm.2 x rfl rfl
        subst this
        exact absurd (w2.1 rfl) (hno _)
    subst hmn
    refine ⟨_, rfl, rfl, rfl, rfl, ?_⟩
    cases dis <;> rfl

/-! ### Examples -/

/-- An engine which always gives the same response to each command, failing for unknown ones. -/
def scripted (table : List (Str × Str)) : Channel (Option Str) where
  send := fun command _ _ => (.ok (), some command)
  recv := fun s => match s with
    | none => (.error ⟨.other, "no outstanding commands".toList⟩, s)
    | some command => match table.lookup command with
      | some r => (.ok (false, r), none)
      | none => (.ok (true, "unknown command".toList), none)
  close := fun s => (none, s)

/-- An engine which passes, and gives the score. -/
def passer (score : String) : Channel (Option Str) :=
  scripted [("boardsize".toList, []), ("clear_board".toList, []), ("komi".toList, []), ("genmove".toList, "pass".toList), ("play".toList, []),
    ("known_command".toList, "true".toList), ("final_score".toList, score.toList), ("gomill-explain_last_move".toList, []),
    ("gomill-cpu_time".toList, "5".toList), ("place_free_handicap".toList, "A1 C1 A3".toList), ("set_free_handicap".toList, []), ("quit".toList, [])]

def exampleGC : GC (Option Str) where
  ctl := fun c => Ctl.init none (match c with | .b => "player one".toList | .w => "player two".toList)
  code := fun c => match c with | .b => "one".toList | .w => "two".toList
  lateErrors := []
  cautious := false

def exampleCfg : GtpCfg Unit where
  boardSize := 3
  komi := 0
  komiText := "0.0".toList
  claimAllowed := fun _ => false
  scorers := [.b, .w]
  internal := false
  comp := .no
  float := fun s => if s = "3.5".toList then some (.fin (7/2)) else if s = "NAN".toList then some .nan else if s = "4".toList then some (.fin 4) else none
  cpuFloat := fun s => if s = "5".toList then some 5 else none
  replaceBad := id
  callback := fun _ _ _ u => (.ok (), u)

/-- The example: prepare, then set_handicap (if there is a number), then run. -/
def exampleGtpRun (b w : String) (handicap : Option Int) : Option (Except GExc Unit × GtpGame (Option Str) Unit × Option Game) :=
  let C : Colour → Channel (Option Str) := fun c => match c with | .b => passer b | .w => passer w
  let g := ((GtpGame.init exampleCfg exampleGC () (some 20) (some "1".toList)).prepare C exampleCfg).2
  let g := match handicap with
    | none => g
    | some k => (g.setHandicap C exampleCfg k true).2
  g.run C exampleCfg (fun _ => "3.5".toList) 20

/-- C58, C59: the hypotheses are satisfied, and what happens: agreement, agreement on the winner only, disagreement, one scorer only; a NaN, which makes `run`
raise ValueError at the end of the game; and a free handicap with three stones when two were asked for. -/
theorem C58_witness :
    Sound exampleGC ∧ isWellFormedWord exampleCfg.komiText = true ∧
    (exampleGtpRun "B+3.5" "b+3.5" none).map (fun x => (decide (x.1 = .ok ()), x.2.1.result.map GameResult.describe)) = some (true, some "one beat two B+3.5".toList) ∧
    (exampleGtpRun "W+4" "W+3.5" none).map (fun x => x.2.1.result.map GameResult.describe) = some (some "two beat one W+ (unknown margin)".toList) ∧
    (exampleGtpRun "B+3.5" "W+3.5" none).map (fun x => x.2.1.result.map GameResult.describe) = some (some "one vs two ? (players disagreed)".toList) ∧
    (exampleGtpRun "0" "cannot score" none).map (fun x => x.2.1.result.map GameResult.describe) = some (some "one vs two jigo".toList) ∧
    (exampleGtpRun "B+nan" "none" none).map (fun x => (decide (x.1 = .error (.py .valueError)), x.2.1.result.isSome, x.2.2.map Game.isOver)) = some (true, false, some true) ∧
    (exampleGtpRun "0" "0" (some 2)).map (fun x => x.2.1.runner.haProp) = some (some 2) ∧
    (exampleGtpRun "0" "0" (some 2)).map (fun x => x.2.1.runner.handicapStones) = some (some [(0, 0), (0, 2), (2, 0)]) ∧
    (exampleGtpRun "0" "0" (some 2)).map (fun x => x.2.1.runner.moves.map (fun m => (m.1, m.2.1))) = some [(.w, none), (.b, none)] := by
  refine ⟨?_, by decide +kernel, by decide +kernel, by decide +kernel, by decide +kernel, by decide +kernel, by decide +kernel, by decide +kernel, by decide +kernel, by decide +kernel⟩
  intro c
  exact ⟨rfl, rfl, fun kv h => nomatch h⟩

end Gomill.Gtp
