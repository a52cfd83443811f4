import Verif.Lemmas.Players
import Verif.Spec.PlayerCheck
/-
C74: players from a control file.
-/
namespace Gomill.Conf
open Py Spec

variable {W : World}

theorem playerSettings_nodup (W : World) : ((playerSettings W).map Setting.name).Nodup := by
  have : (playerSettings W).map Setting.name = ["command".toList, "cwd".toList, "environ".toList, "is_reliable_scorer".toList, "allow_claim".toList, "gtp_aliases".toList,
    "startup_gtp_commands".toList, "discard_stderr".toList, "sgf_player_name_from_gtp".toList] := rfl
  rw [this]
  decide +kernel

theorem playerSettings_noKey (W : World) : ∀ s ∈ playerSettings W, NoKeyError s := by
  intro s hs
  simp only [playerSettings, List.mem_cons, List.not_mem_nil, or_false] at hs
  rcases hs with rfl | rfl | rfl | rfl | rfl | rfl | rfl | rfl | rfl
  · exact sv_noKey interprets_shlex
  · exact sv_noKey (interprets_none interprets_8bit)
  · exact sv_noKey (interprets_none (interprets_map interprets_8bit interprets_8bit))
  · exact sv_noKey interprets_bool
  · exact sv_noKey interprets_bool
  · exact sv_noKey (interprets_none (interprets_map interprets_8bit interprets_8bit))
  · exact sv_noKey (interprets_none interprets_sequence)
  · exact sv_noKey interprets_bool
  · exact sv_noKey interprets_bool

/-- The value for an argument of `Player(...)`. -/
def PlayerArg (W : World) (args : List Val) (kwargs : List (Str × Val)) (name : Str) (v : Val) : Prop :=
  ∃ u, argument playerPositional args kwargs name = some u ∧ Stands W u v

/-- There is a value for an argument of `Player(...)`. -/
def PlayerGiven (args : List Val) (kwargs : List (Str × Val)) (name : Str) : Prop := argument playerPositional args kwargs name ≠ none

/-- The names of the arguments of `Player(...)`. -/
def playerKeywords : List Str := ["command".toList, "cwd".toList, "environ".toList, "is_reliable_scorer".toList, "allow_claim".toList, "gtp_aliases".toList,
  "startup_gtp_commands".toList, "discard_stderr".toList, "sgf_player_name_from_gtp".toList]

theorem player_ok {base : Option Str} {code : Str} {args : List Val} {kwargs : List (Str × Val)} (hn : (kwargs.map Prod.fst).Nodup) {p : Gtp.JobPlayer}
    (h : playerFromConfig W base code args kwargs = .ok p) :
    GoodArguments playerPositional playerKeywords args kwargs ∧ PlayerOf W base code (PlayerArg W args kwargs) (PlayerGiven args kwargs) p ∧
      ∀ e ∈ p.aliases, Gtp.isWellFormedWord e.1 = true ∧ Gtp.isWellFormedWord e.2 = true := by
  unfold playerFromConfig at h
  simp only [bind_ok] at h
  obtain ⟨arguments, hargs, config, hconf, command, hcommand, cmdArgs, hcmd, cwd0, hcwd0, cwd, hcwd, environ, henv, rel, hrel, claim, hclaim, disc, hdisc, nm, hnm,
    sv0, hsv0, startup, hstart, al0, hal0, aliases, hal, h⟩ := h
  have hgood : GoodArguments playerPositional playerKeywords args kwargs := by
    apply Classical.byContradiction
    intro hc
    obtain ⟨e, he, _⟩ := (C73_resolve_arguments playerPositional playerKeywords args kwargs hn).2 hc
    rw [show playerKeywords = (playerSettings W).map Setting.name from rfl, hargs] at he
    cases he
  obtain ⟨r, hr, hlook⟩ := (C73_resolve_arguments playerPositional playerKeywords args kwargs hn).1 hgood
  rw [show playerKeywords = (playerSettings W).map Setting.name from rfl, hargs] at hr
  cases hr
  have hset := ((C73_load_settings W arguments true false (playerSettings W) (playerSettings_nodup W) (playerSettings_noKey W)).1 config hconf).1
  have get : ∀ s ∈ playerSettings W, ∃ x, Gets W arguments true s x ∧ config.lookup s.name = some x := by
    intro s hs
    rcases hset s hs with h | ⟨_, h, _⟩
    · exact h
    · cases h
  have has : ∀ n v, Has W arguments n v ↔ PlayerArg W args kwargs n v := by
    intro n v; unfold Has PlayerArg; rw [hlook]
  have given : ∀ n, arguments.lookup n = none ↔ ¬ PlayerGiven args kwargs n := by
    intro n; unfold PlayerGiven; rw [hlook, ne_eq, Classical.not_not]
  have flag : ∀ (name : String) (d b : Bool), ({ name := name.toList, interpreter := sv interpretBool .bool, default := some (.bool d) } : Setting) ∈ playerSettings W →
      boolOf config name = .ok b → Flag (PlayerArg W args kwargs) (PlayerGiven args kwargs) name d b := by
    intro name d b hs hb
    obtain ⟨x, hx, hl⟩ := get _ hs
    unfold boolOf at hb
    rw [show config.lookup name.toList = some x from hl] at hb
    rcases (gets_sv interprets_bool).1 hx with ⟨v, y, h1, rfl, rfl⟩ | ⟨h1, h2⟩
    · cases hb
      exact .inr ((has _ _).1 h1)
    · cases h2
      cases hb
      exact .inl ⟨(given _).1 h1, rfl⟩
  cases h
  refine ⟨hgood, ?_, fun e he => ?_⟩
  · refine ⟨rfl, ?_, ?_, ?_, flag _ _ _ ?_ hrel, flag _ _ _ ?_ hclaim, flag _ _ _ ?_ hdisc, flag _ _ _ ?_ hnm, ?_, ?_⟩
    · obtain ⟨x, hx, hl⟩ := get { name := "command".toList, interpreter := sv (interpretShlex W) .strs } (by simp [playerSettings])
      unfold strsOf at hcommand
      rw [show config.lookup "command".toList = some x from hl] at hcommand
      rcases (gets_sv interprets_shlex).1 hx with ⟨v, y, h1, h2, rfl⟩ | ⟨_, h2⟩
      · cases hcommand
        cases command with
        | nil => exact absurd hcmd (fun h => nomatch h)
        | cons c l => exact ⟨v, c, l, (has _ _).1 h1, h2, commandLine_ok.1 hcmd⟩
      · cases h2
    · obtain ⟨x, hx, hl⟩ := get { name := "cwd".toList, interpreter := sv (allowNone interpret8bit) (optVal .str), default := some .none } (by simp [playerSettings])
      unfold optStrOf at hcwd0
      rw [show config.lookup "cwd".toList = some x from hl] at hcwd0
      rcases (gets_sv (interprets_none interprets_8bit)).1 hx with ⟨v, y, h1, h2, rfl⟩ | ⟨h1, h2⟩
      · rcases h2 with ⟨rfl, rfl⟩ | ⟨_, s, h2, rfl⟩
        · cases hcwd0
          rcases resolveCwd_ok.1 hcwd with ⟨_, rfl⟩ | ⟨s, q, hs, _⟩
          · exact .inl ⟨.inr ((has _ _).1 h1), rfl⟩
          · cases hs
        · cases hcwd0
          rcases resolveCwd_ok.1 hcwd with ⟨hs, _⟩ | ⟨s', q, hs, hq, rfl⟩
          · cases hs
          · cases hs; exact .inr ⟨v, s, q, (has _ _).1 h1, h2, hq, rfl⟩
      · cases h2
        cases hcwd0
        rcases resolveCwd_ok.1 hcwd with ⟨_, rfl⟩ | ⟨s, q, hs, _⟩
        · exact .inl ⟨.inl ((given _).1 h1), rfl⟩
        · cases hs
    · obtain ⟨x, hx, hl⟩ := get { name := "environ".toList, interpreter := sv (allowNone (interpretMapOf W interpret8bit interpret8bit)) (optVal .pairs), default := some .none } (by simp [playerSettings])
      unfold optPairsOf at henv
      rw [show config.lookup "environ".toList = some x from hl] at henv
      rcases (gets_sv (interprets_none (interprets_map interprets_8bit interprets_8bit))).1 hx with ⟨v, y, h1, h2, rfl⟩ | ⟨h1, h2⟩
      · rcases h2 with ⟨rfl, rfl⟩ | ⟨hv, s, h2, rfl⟩
        · cases henv; exact .inl ⟨.inr ((has _ _).1 h1), rfl⟩
        · cases henv; exact .inr ⟨v, s, hv, (has _ _).1 h1, h2, rfl⟩
      · cases h2; cases henv; exact .inl ⟨.inl ((given _).1 h1), rfl⟩
    · simp [playerSettings]
    · simp [playerSettings]
    · simp [playerSettings]
    · simp [playerSettings]
    · obtain ⟨x, hx, hl⟩ := get { name := "startup_gtp_commands".toList, interpreter := sv (allowNone (interpretSequence W)) (optVal .vals), default := some (.vals []) } (by simp [playerSettings])
      unfold valsOf at hsv0
      rw [show config.lookup "startup_gtp_commands".toList = some x from hl] at hsv0
      rcases (gets_sv (interprets_none interprets_sequence)).1 hx with ⟨v, y, h1, h2, rfl⟩ | ⟨h1, h2⟩
      · rcases h2 with ⟨rfl, rfl⟩ | ⟨hv, s, h2, rfl⟩
        · cases hsv0
        · cases hsv0; exact .inr ⟨v, _, hv, (has _ _).1 h1, h2, (startupCommands_ok _ _).1 hstart⟩
      · cases h2; cases hsv0
        cases hstart
        exact .inl ⟨(given _).1 h1, rfl⟩
    · obtain ⟨x, hx, hl⟩ := get { name := "gtp_aliases".toList, interpreter := sv (allowNone (interpretMapOf W interpret8bit interpret8bit)) (optVal .pairs), default := some (.pairs []) } (by simp [playerSettings])
      unfold pairsOf at hal0
      rw [show config.lookup "gtp_aliases".toList = some x from hl] at hal0
      rcases (gets_sv (interprets_none (interprets_map interprets_8bit interprets_8bit))).1 hx with ⟨v, y, h1, h2, rfl⟩ | ⟨h1, h2⟩
      · rcases h2 with ⟨rfl, rfl⟩ | ⟨hv, s, h2, rfl⟩
        · cases hal0
        · cases hal0
          obtain ⟨k1, k2, _⟩ := (gtpAliases_spec _ []).1 _ hal
          refine .inr ⟨v, _, hv, (has _ _).1 h1, h2, k1, fun k => ?_⟩
          rw [k2 k]
          cases al0.reverse.lookup k <;> rfl
      · cases h2; cases hal0; cases hal
        exact .inl ⟨(given _).1 h1, rfl⟩
  · obtain ⟨k1, _, k3⟩ := (gtpAliases_spec al0 []).1 _ hal
    rcases k3 e he with h | h
    · exact k1 e h
    · cases h

theorem player_exists {base : Option Str} {code : Str} {args : List Val} {kwargs : List (Str × Val)} (hn : (kwargs.map Prod.fst).Nodup) {p : Gtp.JobPlayer}
    (hgood : GoodArguments playerPositional playerKeywords args kwargs) (hp : PlayerOf W base code (PlayerArg W args kwargs) (PlayerGiven args kwargs) p) :
    ∃ q, playerFromConfig W base code args kwargs = .ok q := by
  obtain ⟨arguments, hargs, hlook⟩ := (C73_resolve_arguments playerPositional playerKeywords args kwargs hn).1 hgood
  have has : ∀ n v, Has W arguments n v ↔ PlayerArg W args kwargs n v := by
    intro n v; unfold Has PlayerArg; rw [hlook]
  have given : ∀ n, arguments.lookup n = none ↔ ¬ PlayerGiven args kwargs n := by
    intro n; unfold PlayerGiven; rw [hlook, ne_eq, Classical.not_not]
  have flag : ∀ (name : String) (d b : Bool), Flag (PlayerArg W args kwargs) (PlayerGiven args kwargs) name d b →
      Gets W arguments true { name := name.toList, interpreter := sv interpretBool .bool, default := some (.bool d) } (.bool b) := by
    intro name d b h
    rcases h with ⟨h1, rfl⟩ | h1
    · exact (gets_sv interprets_bool).2 (.inr ⟨(given _).2 h1, rfl⟩)
    · exact (gets_sv interprets_bool).2 (.inl ⟨_, b, (has _ _).2 h1, rfl, rfl⟩)
  obtain ⟨v, c, l, hv, hcl, hcmd⟩ := hp.command
  have g1 : Gets W arguments true { name := "command".toList, interpreter := sv (interpretShlex W) .strs } (.strs (c :: l)) :=
    (gets_sv interprets_shlex).2 (.inl ⟨v, _, (has _ _).2 hv, hcl, rfl⟩)
  have g2 : ∃ x y, Gets W arguments true { name := "cwd".toList, interpreter := sv (allowNone interpret8bit) (optVal .str), default := some .none } (optVal .str x) ∧
      resolveCwd W base x = .ok y := by
    rcases hp.cwd with ⟨h | h, _⟩ | ⟨v, s, q, h, hs, hq, _⟩
    · exact ⟨none, none, (gets_sv (interprets_none interprets_8bit)).2 (.inr ⟨(given _).2 h, rfl⟩), rfl⟩
    · exact ⟨none, none, (gets_sv (interprets_none interprets_8bit)).2 (.inl ⟨_, none, (has _ _).2 h, .inl ⟨rfl, rfl⟩, rfl⟩), rfl⟩
    · refine ⟨some s, some q, (gets_sv (interprets_none interprets_8bit)).2 (.inl ⟨v, some s, (has _ _).2 h, .inr ⟨?_, s, hs, rfl⟩, rfl⟩), resolveCwd_ok.2 (.inr ⟨s, q, rfl, hq, rfl⟩)⟩
      rintro rfl
      cases hs.1
  have g3 : ∃ x, Gets W arguments true { name := "environ".toList, interpreter := sv (allowNone (interpretMapOf W interpret8bit interpret8bit)) (optVal .pairs), default := some .none } (optVal .pairs x) := by
    rcases hp.environ with ⟨h | h, _⟩ | ⟨v, r, hv, h, hs, _⟩
    · exact ⟨none, (gets_sv (interprets_none (interprets_map interprets_8bit interprets_8bit))).2 (.inr ⟨(given _).2 h, rfl⟩)⟩
    · exact ⟨none, (gets_sv (interprets_none (interprets_map interprets_8bit interprets_8bit))).2 (.inl ⟨_, none, (has _ _).2 h, .inl ⟨rfl, rfl⟩, rfl⟩)⟩
    · exact ⟨some r, (gets_sv (interprets_none (interprets_map interprets_8bit interprets_8bit))).2 (.inl ⟨v, some r, (has _ _).2 h, .inr ⟨hv, r, hs, rfl⟩, rfl⟩)⟩
  have g4 : ∃ x y, Gets W arguments true { name := "gtp_aliases".toList, interpreter := sv (allowNone (interpretMapOf W interpret8bit interpret8bit)) (optVal .pairs), default := some (.pairs []) } (.pairs x) ∧
      gtpAliases x [] = .ok y := by
    rcases hp.aliases with ⟨h, _⟩ | ⟨v, r, hv, h, hs, hw, _⟩
    · exact ⟨[], [], (gets_sv (interprets_none (interprets_map interprets_8bit interprets_8bit))).2 (.inr ⟨(given _).2 h, rfl⟩), rfl⟩
    · have hg : ∃ y, gtpAliases r [] = .ok y := by
        cases hr : gtpAliases r [] with
        | ok y => exact ⟨y, rfl⟩
        | error e => obtain ⟨_, x, hx, hc⟩ := (gtpAliases_spec r []).2 e hr; exact absurd (hw x hx) hc
      obtain ⟨y, hy⟩ := hg
      exact ⟨r, y, (gets_sv (interprets_none (interprets_map interprets_8bit interprets_8bit))).2 (.inl ⟨v, some r, (has _ _).2 h, .inr ⟨hv, r, hs, rfl⟩, rfl⟩), hy⟩
  have g5 : ∃ x y, Gets W arguments true { name := "startup_gtp_commands".toList, interpreter := sv (allowNone (interpretSequence W)) (optVal .vals), default := some (.vals []) } (.vals x) ∧
      startupCommands W x = .ok y := by
    rcases hp.startup with ⟨h, _⟩ | ⟨v, r, hv, h, hs, hw⟩
    · exact ⟨[], [], (gets_sv (interprets_none interprets_sequence)).2 (.inr ⟨(given _).2 h, rfl⟩), rfl⟩
    · exact ⟨r, _, (gets_sv (interprets_none interprets_sequence)).2 (.inl ⟨v, some r, (has _ _).2 h, .inr ⟨hv, r, hs, rfl⟩, rfl⟩), (startupCommands_ok _ _).2 hw⟩
  obtain ⟨x2, y2, g2, r2⟩ := g2
  obtain ⟨x3, g3⟩ := g3
  obtain ⟨x4, y4, g4, r4⟩ := g4
  obtain ⟨x5, y5, g5, r5⟩ := g5
  have f1 := flag _ _ _ hp.isReliableScorer
  have f2 := flag _ _ _ hp.allowClaim
  have f3 := flag _ _ _ hp.discardStderr
  have f4 := flag _ _ _ hp.nameFromGtp
  obtain ⟨config, hconf⟩ := loadSettings_ok (W := W) (config := arguments) (ad := true) (am := false) (playerSettings_nodup W) (playerSettings_noKey W) (by
    intro s hs
    simp only [playerSettings, List.mem_cons, List.not_mem_nil, or_false] at hs
    rcases hs with rfl | rfl | rfl | rfl | rfl | rfl | rfl | rfl | rfl
    · exact .inl ⟨_, g1⟩
    · exact .inl ⟨_, g2⟩
    · exact .inl ⟨_, g3⟩
    · exact .inl ⟨_, f1⟩
    · exact .inl ⟨_, f2⟩
    · exact .inl ⟨_, g4⟩
    · exact .inl ⟨_, g5⟩
    · exact .inl ⟨_, f3⟩
    · exact .inl ⟨_, f4⟩)
  have hset := ((C73_load_settings W arguments true false (playerSettings W) (playerSettings_nodup W) (playerSettings_noKey W)).1 config hconf).1
  have get : ∀ s ∈ playerSettings W, ∀ x, Gets W arguments true s x → config.lookup s.name = some x := by
    intro s hs x hx
    rcases hset s hs with ⟨y, hy, hl⟩ | ⟨h, _⟩
    · rw [hl, gets_unique hx hy]
    · exact absurd h (gets_not_missing hx)
  have k1 : config.lookup "command".toList = _ := get _ (by simp [playerSettings]) _ g1
  have k2 : config.lookup "cwd".toList = _ := get _ (by simp [playerSettings]) _ g2
  have k3 : config.lookup "environ".toList = _ := get _ (by simp [playerSettings]) _ g3
  have k4 : config.lookup "gtp_aliases".toList = _ := get _ (by simp [playerSettings]) _ g4
  have k5 : config.lookup "startup_gtp_commands".toList = _ := get _ (by simp [playerSettings]) _ g5
  have l1 : config.lookup "is_reliable_scorer".toList = _ := get _ (by simp [playerSettings]) _ f1
  have l2 : config.lookup "allow_claim".toList = _ := get _ (by simp [playerSettings]) _ f2
  have l3 : config.lookup "discard_stderr".toList = _ := get _ (by simp [playerSettings]) _ f3
  have l4 : config.lookup "sgf_player_name_from_gtp".toList = _ := get _ (by simp [playerSettings]) _ f4
  unfold playerFromConfig
  simp only [bind_ok]
  refine ⟨_, arguments, hargs, config, hconf, c :: l, by unfold strsOf; rw [k1], _, commandLine_ok.2 hcmd, x2, ?_, y2, r2, x3, ?_, _, by unfold boolOf; rw [l1], _, by unfold boolOf; rw [l2],
    _, by unfold boolOf; rw [l3], _, by unfold boolOf; rw [l4], x5, by unfold valsOf; rw [k5], y5, r5, x4, by unfold pairsOf; rw [k4], y4, r4, rfl⟩
  · unfold optStrOf; rw [k2]; cases x2 <;> rfl
  · unfold optPairsOf; rw [k3]; cases x3 <;> rfl

/-- C74: the players which are accepted, and what they are. (Python guarantees that keyword arguments have different names.) -/
theorem C74_player (W : World) (base : Option Str) (code : Str) (args : List Val) (kwargs : List (Str × Val)) (hn : (kwargs.map Prod.fst).Nodup) :
    (∀ p, playerFromConfig W base code args kwargs = .ok p →
      GoodArguments playerPositional playerKeywords args kwargs ∧ PlayerOf W base code (PlayerArg W args kwargs) (PlayerGiven args kwargs) p) ∧
    (GoodArguments playerPositional playerKeywords args kwargs → (∃ p, PlayerOf W base code (PlayerArg W args kwargs) (PlayerGiven args kwargs) p) →
      ∃ p, playerFromConfig W base code args kwargs = .ok p) :=
  ⟨fun _ h => ⟨(player_ok hn h).1, (player_ok hn h).2.1⟩, fun hg ⟨_, hp⟩ => player_exists hn hg hp⟩

/-- C74: everything gomill will send to the engine because of the player's configuration is a well-formed word (which C57, C58, C71 and C72 assume). -/
theorem C74_words (W : World) (base : Option Str) (code : Str) (args : List Val) (kwargs : List (Str × Val)) (hn : (kwargs.map Prod.fst).Nodup) (p : Gtp.JobPlayer)
    (h : playerFromConfig W base code args kwargs = .ok p) (komi : Str) (hkomi : Gtp.isWellFormedWord komi = true) : Gtp.Spec.CheckWords p komi := by
  obtain ⟨_, h1, h2⟩ := player_ok hn h
  refine ⟨fun e he => (h2 e he).2, ?_, hkomi⟩
  intro x hx
  rcases h1.startup with ⟨_, hs⟩ | ⟨v, l, _, _, hl, hf⟩
  · rw [hs] at hx; cases hx
  · obtain ⟨y, _, hc⟩ : ∃ y ∈ l, CommandOf W y x := by
      clear hn h h1 h2 hl
      generalize p.startup = r at hf hx
      induction hf with
      | nil => cases hx
      | cons h1 _ ih =>
        rcases List.mem_cons.1 hx with rfl | hx
        · exact ⟨_, List.mem_cons_self .., h1⟩
        · obtain ⟨y, hy, hc⟩ := ih hx; exact ⟨y, List.mem_cons_of_mem _ hy, hc⟩
    exact ⟨hc.2 _ (List.mem_cons_self ..), fun a ha => hc.2 a (List.mem_cons_of_mem _ ha)⟩

/-! ### All the players -/

/-- A dict doesn't have two keys which are the same text. -/
def DictKeys (W : World) : Prop := ∀ v l, W.mapOf v = some l → l.Pairwise (fun a b => ∀ s, ¬ (Text a.1 s ∧ Text b.1 s))

/-- A code for a player, and a `Player(...)`. -/
abbrev PlayerKey (v : Val) (s : Str) : Prop := Text v s ∧ Ident s
abbrev PlayerVal (v x : Val) : Prop := x = v ∧ ∃ args kwargs, v = .quiet "Player".toList args kwargs

theorem mapping_nodup (hd : DictKeys W) {α : Type} {K : Val → Str → Prop} (hK : ∀ v s, K v s → Text v s) {V : Val → α → Prop} {v : Val} {r : List (Str × α)}
    (h : Mapping W K V v r) : (r.map Prod.fst).Nodup := by
  obtain ⟨l, r', h1, h2, rfl⟩ := h
  have hp := hd v l h1
  rw [((sorted_entries r').1.map Prod.fst).nodup_iff]
  clear h1
  induction h2 with
  | nil => simp
  | cons ha hb ih =>
    rename_i a x l r
    rw [List.pairwise_cons] at hp
    rw [List.map_cons, List.nodup_cons]
    refine ⟨?_, ih hp.2⟩
    intro hx
    obtain ⟨y, hy, he⟩ := List.mem_map.1 hx
    obtain ⟨b, hbl, hby⟩ : ∃ b ∈ l, K b.1 y.1 := by
      clear ih hp ha hx
      induction hb with
      | nil => cases hy
      | cons h1 _ ih =>
        rcases List.mem_cons.1 hy with rfl | hy
        · exact ⟨_, List.mem_cons_self .., h1.1⟩
        · obtain ⟨b, hb, hk⟩ := ih hy; exact ⟨b, List.mem_cons_of_mem _ hb, hk⟩
    exact hp.1 b hbl x.1 ⟨hK _ _ ha.1, he ▸ hK _ _ hby⟩

theorem makePlayers_ok {base : Option Str} : ∀ (l : List (Str × Val)) (d r : List (Str × Gtp.JobPlayer)), (l.map Prod.fst).Nodup →
    makePlayers W base l d = .ok r →
    (∀ code v, (code, v) ∈ l → ∃ cls args kwargs p, v = .quiet cls args kwargs ∧ playerFromConfig W base code args kwargs = .ok p ∧ r.lookup code = some p) ∧
    ∀ n, n ∉ l.map Prod.fst → r.lookup n = d.lookup n
  | [], d, r, _, h => by cases h; exact ⟨(fun _ _ h => nomatch h), fun _ _ => rfl⟩
  | (code, v) :: l, d, r, hn, h => by
    rw [List.map_cons, List.nodup_cons] at hn
    cases v with
    | quiet cls args kwargs =>
      unfold makePlayers at h
      split at h
      · cases h
      · rename_i p hp
        obtain ⟨h1, h2⟩ := makePlayers_ok l _ r hn.2 h
        refine ⟨?_, ?_⟩
        · intro c v hv
          rcases List.mem_cons.1 hv with hv | hv
          · cases hv
            exact ⟨cls, args, kwargs, p, rfl, hp, by rw [h2 _ hn.1, lookup_put, if_pos rfl]⟩
          · exact h1 c v hv
        · intro n hm
          rw [List.map_cons, List.mem_cons, not_or] at hm
          rw [h2 n hm.2, lookup_put, if_neg hm.1]
    | _ => exact absurd h (fun h => nomatch h)

theorem makePlayers_error {base : Option Str} : ∀ (l : List (Str × Val)) (d : List (Str × Gtp.JobPlayer)) (e : Err),
    (∀ x ∈ l, ∃ cls args kwargs, x.2 = .quiet cls args kwargs) → makePlayers W base l d = .error e →
    ∃ code cls args kwargs e', (code, Val.quiet cls args kwargs) ∈ l ∧ playerFromConfig W base code args kwargs = .error e' ∧
      e = ⟨.controlFile, "player ".toList ++ code ++ ": ".toList ++ e'.msg⟩
  | [], d, e, _, h => by cases h
  | (code, v) :: l, d, e, hq, h => by
    obtain ⟨cls, args, kwargs, hv⟩ := hq _ (List.mem_cons_self ..)
    simp only at hv
    subst hv
    unfold makePlayers at h
    split at h
    · rename_i e' he
      cases h
      exact ⟨code, cls, args, kwargs, e', List.mem_cons_self .., he, rfl⟩
    · obtain ⟨c, cls, args, kwargs, e', h1, h2⟩ := makePlayers_error l _ e (fun x hx => hq x (List.mem_cons_of_mem _ hx)) h
      exact ⟨c, cls, args, kwargs, e', List.mem_cons_of_mem _ h1, h2⟩

theorem toControl_ok {α : Type} {x : Except Err α} {a : α} : toControl x = .ok a ↔ x = .ok a := by
  cases x <;> simp [toControl]

theorem globalSettings_noKey : ∀ s ∈ globalSettings, NoKeyError s := by
  intro s hs
  simp only [globalSettings, List.mem_cons, List.not_mem_nil, or_false] at hs
  subst hs
  exact sv_noKey (interprets_none interprets_utf8_stripped)

theorem playersSetting_noKey (W : World) : ∀ s ∈ [playersSetting W], NoKeyError s := by
  intro s hs
  rw [List.mem_singleton] at hs
  subst hs
  exact sv_noKey (interprets_map interprets_identifier interprets_pc)

/-- The values in a mapping of players. -/
theorem mapping_players {v : Val} {r : List (Str × Val)} (h : Mapping W PlayerKey PlayerVal v r) : ∀ x ∈ r, ∃ args kwargs, x.2 = .quiet "Player".toList args kwargs := by
  obtain ⟨l, r', hl, h2, rfl⟩ := h
  intro x hx
  replace hx := (sorted_entries r').1.mem_iff.1 hx
  clear hl
  induction h2 with
  | nil => cases hx
  | cons h _ ih =>
    rename_i _ y _ _
    rcases List.mem_cons.1 hx with rfl | hx
    · obtain ⟨args, kwargs, hh⟩ := h.2.2; exact ⟨args, kwargs, h.2.1.trans hh⟩
    · exact ih hx

/-- C74: reading the description and the players from a control file. The players are those in the `players` mapping, with its (different) keys, which are identifiers, as
their codes; each is made as in C74_player. -/
theorem C74_competition (W : World) (hd : DictKeys W) (base : Option Str) (config : List (Str × Val)) (description : Option Str) (players : List (Str × Gtp.JobPlayer))
    (h : initCompetition W base config = .ok (description, players)) :
    (((config.lookup "description".toList = none ∨ Has W config "description".toList .none) ∧ description = none) ∨
      ∃ v t, v ≠ .none ∧ Has W config "description".toList v ∧ Utf8Text v t ∧ description = some (strip t)) ∧
    ∃ v r, Has W config "players".toList v ∧ Mapping W PlayerKey PlayerVal v r ∧ (r.map Prod.fst).Nodup ∧ (∀ code, players.lookup code ≠ none ↔ code ∈ r.map Prod.fst) ∧
      ∀ code args kwargs, (code, .quiet "Player".toList args kwargs) ∈ r → ∃ p, playerFromConfig W base code args kwargs = .ok p ∧ players.lookup code = some p := by
  unfold initCompetition at h
  simp only [bind_ok] at h
  obtain ⟨globals, hg, desc, hdesc, specials, hs, configs, hc, ps, hps, h⟩ := h
  cases h
  refine ⟨?_, ?_⟩
  · obtain ⟨h1, _⟩ := (C73_load_settings W config true false globalSettings (by decide) globalSettings_noKey).1 globals (toControl_ok.1 hg)
    obtain ⟨x, hx, hl⟩ : ∃ x, Gets W config true { name := "description".toList, interpreter := sv (allowNone interpretUtf8Stripped) (optVal .str), default := some .none } x ∧
        globals.lookup "description".toList = some x := by
      rcases h1 _ (List.mem_singleton.2 rfl) with h | ⟨_, h, _⟩
      · exact h
      · cases h
    unfold optStrOf at hdesc
    rw [hl] at hdesc
    rcases (gets_sv (interprets_none interprets_utf8_stripped)).1 hx with ⟨v, y, h1, h2, rfl⟩ | ⟨h1, h2⟩
    · rcases h2 with ⟨rfl, rfl⟩ | ⟨hv, s, ⟨t, ht, rfl⟩, rfl⟩
      · cases hdesc; exact .inl ⟨.inr h1, rfl⟩
      · cases hdesc; exact .inr ⟨v, t, hv, h1, ht, rfl⟩
    · cases h2; cases hdesc; exact .inl ⟨.inl h1, rfl⟩
  · obtain ⟨h1, _⟩ := (C73_load_settings W config true false [playersSetting W] (by simp) (playersSetting_noKey W)).1 specials (toControl_ok.1 hs)
    obtain ⟨x, hx, hl⟩ : ∃ x, Gets W config true (playersSetting W) x ∧ specials.lookup "players".toList = some x := by
      rcases h1 _ (List.mem_singleton.2 rfl) with h | ⟨_, h, _⟩
      · exact h
      · cases h
    unfold configsOf at hc
    rw [hl] at hc
    rcases (gets_sv (interprets_map interprets_identifier interprets_pc)).1 hx with ⟨v, y, h1, h2, rfl⟩ | ⟨_, h2⟩
    · cases hc
      have hn := mapping_nodup hd (K := PlayerKey) (fun _ _ h => h.1) h2
      obtain ⟨k1, k2⟩ := makePlayers_ok configs [] players hn hps
      refine ⟨v, configs, h1, h2, hn, ?_, ?_⟩
      · intro code
        constructor
        · intro hc
          apply Classical.byContradiction
          intro hm
          exact hc (k2 code hm)
        · intro hm
          obtain ⟨⟨c, v⟩, hm', rfl⟩ := List.mem_map.1 hm
          obtain ⟨_, _, _, p, _, _, hp⟩ := k1 c v hm'
          simp only [hp]
          exact fun h => nomatch h
      · intro code args kwargs hm
        obtain ⟨cls, args', kwargs', p, he, hp, hq⟩ := k1 _ _ hm
        cases he
        exact ⟨p, hp, hq⟩
    · cases h2

/-- C74: a problem with the description or the players is always reported as a ControlFileError. -/
theorem C74_errors (W : World) (base : Option Str) (config : List (Str × Val)) (e : Err) (h : initCompetition W base config = .error e) : e.kind = .controlFile := by
  have load : ∀ (s : Setting) (r : Except Err (List (Str × SVal))), NoKeyError s → (∀ v e, s.interpreter v = .error e → e.kind = .value) →
      toControl (loadSettings W config true false [s] []) = r → (∃ e, r = .error e ∧ e.kind = .controlFile) ∨ ∃ d x, r = .ok d ∧ Gets W config true s x ∧ d.lookup s.name = some x := by
    intro s r hk hv hr
    cases hl : loadSettings W config true false [s] [] with
    | ok d =>
      rw [hl] at hr
      subst hr
      obtain ⟨h1, _⟩ := (C73_load_settings W config true false [s] (by simp) (fun t ht => by rw [List.mem_singleton] at ht; subst ht; exact hk)).1 d hl
      rcases h1 _ (List.mem_singleton.2 rfl) with ⟨x, h, h'⟩ | ⟨_, h, _⟩
      · exact .inr ⟨d, x, rfl, h, h'⟩
      · cases h
    | error e =>
      rw [hl] at hr
      subst hr
      left
      obtain ⟨pre, t, post, ht, _, h3⟩ := (C73_load_settings W config true false [s] (by simp) (fun t ht => by rw [List.mem_singleton] at ht; subst ht; exact hk)).2 e hl
      have hts : t = s := by
        have : t ∈ [s] := by rw [ht]; simp
        exact List.mem_singleton.1 this
      have : e.kind = .value := by
        rcases h3 with ⟨m, _, rfl⟩ | ⟨_, _, rfl⟩ | ⟨v, _, h1, h2⟩
        · rfl
        · rfl
        · rw [hts] at h1; exact absurd (hv v e h1) h2
      refine ⟨_, rfl, ?_⟩
      rw [if_pos this]
  unfold initCompetition at h
  rcases load _ _ (sv_noKey (interprets_none interprets_utf8_stripped)) (fun v e => sv_error (interprets_none interprets_utf8_stripped)) rfl with ⟨e1, h1, h2⟩ | ⟨d, x, h1, h2, h3⟩
  · rw [show globalSettings = [_] from rfl, h1] at h
    cases h
    exact h2
  · rw [show globalSettings = [_] from rfl, h1] at h
    replace h : (optStrOf d "description" >>= fun description => toControl (loadSettings W config true false [playersSetting W] []) >>= fun specials =>
      configsOf specials "players" >>= fun l => makePlayers W base l [] >>= fun players => pure (description, players)) = Except.error e := h
    have hdesc : ∃ y, optStrOf d "description" = .ok y := by
      unfold optStrOf
      rw [show d.lookup "description".toList = some x from h3]
      rcases (gets_sv (interprets_none interprets_utf8_stripped)).1 h2 with ⟨v, y, _, _, rfl⟩ | ⟨_, h2⟩
      · cases y <;> exact ⟨_, rfl⟩
      · cases h2; exact ⟨_, rfl⟩
    obtain ⟨y, hy⟩ := hdesc
    rw [hy] at h
    rcases load _ _ (sv_noKey (interprets_map interprets_identifier interprets_pc)) (fun v e => sv_error (interprets_map interprets_identifier interprets_pc)) rfl with ⟨e1, h1, h2⟩ | ⟨d, x, h1, h2, h3⟩
    · rw [show (playersSetting W) = _ from rfl, show toControl (loadSettings W config true false [playersSetting W] []) = .error e1 from h1] at h
      cases h
      exact h2
    · replace h : (toControl (loadSettings W config true false [playersSetting W] []) >>= fun specials =>
        configsOf specials "players" >>= fun l => makePlayers W base l [] >>= fun players => pure (y, players)) = Except.error e := h
      rw [show toControl (loadSettings W config true false [playersSetting W] []) = .ok d from h1] at h
      replace h : (configsOf d "players" >>= fun l => makePlayers W base l [] >>= fun players => pure (y, players)) = Except.error e := h
      rcases (gets_sv (interprets_map interprets_identifier interprets_pc)).1 h2 with ⟨v, r, _, hm, rfl⟩ | ⟨_, h2⟩
      · rw [show configsOf d "players" = .ok r by unfold configsOf; rw [show d.lookup "players".toList = some (.configs r) from h3]] at h
        replace h : (makePlayers W base r [] >>= fun players => pure (y, players)) = Except.error e := h
        cases hp : makePlayers W base r [] with
        | ok ps => rw [hp] at h; cases h
        | error e' =>
          rw [hp] at h
          cases h
          obtain ⟨_, _, _, _, _, _, _, rfl⟩ := makePlayers_error r [] _ (fun x hx => by
            obtain ⟨args, kwargs, hh⟩ := mapping_players hm x hx
            exact ⟨_, args, kwargs, hh⟩) hp
          rfl
      · cases h2

/-! ### A concrete case -/

/-- A control file's objects: `obj 0` is a list of startup commands, `obj 3` a mapping of aliases, `obj 4` the players. -/
def exampleConf : World where
  listOf
    | .obj 0 => some [.str "time_settings 0 5 1".toList, .obj 1]
    | .obj 1 => some [.str "set_random_seed".toList, .unicode "5".toList]
    | .obj 2 => some [.str " ".toList]
    | _ => none
  mapOf
    | .obj 3 => some [(.str "b".toList, .str "c".toList), (.unicode "a".toList, .str "d".toList)]
    | .obj 4 => some [(.str "p2".toList, .quiet "Player".toList [.str "gnugo --mode=gtp".toList] []),
        (.str "p1".toList, .quiet "Player".toList [.str "bin/x".toList] [("discard_stderr".toList, .bool true)])]
    | _ => none
  resolve
    | 0 => .ok (.int 19)
    | _ => .error "failed".toList
  floatOf n := if n.natAbs < 2 ^ 1024 then some (.fin n) else none
  shlex s := .ok (Gtp.splitWs s)
  showVal _ := .ok "?".toList
  expandUser s := some (if s.head? = some '~' then "/home/u".toList ++ s.tail else s)

/-- `Player("~/bin/gnugo --mode=gtp", allow_claim=True, gtp_aliases={'b': 'c', u'a': 'd'}, startup_gtp_commands=["time_settings 0 5 1", ["set_random_seed", u"5"]])` -/
def exampleArgs : List Val := [.str "~/bin/gnugo --mode=gtp".toList]
def exampleKwargs : List (Str × Val) := [("allow_claim".toList, .bool true), ("gtp_aliases".toList, .obj 3), ("startup_gtp_commands".toList, .obj 0)]

/-- A player's command line, startup commands and aliases; or, if it was refused, the reason. -/
def playerView (x : Except Err Gtp.JobPlayer) : List (List Str) :=
  match x with
  | .ok p => p.cmdArgs :: p.startup.map (fun c => c.1 :: c.2) ++ p.aliases.map (fun a => [a.1, a.2])
  | .error e => [[e.msg]]

/-- The codes and command lines of the players, or the problem. -/
def playersView (x : Except Err (Option Str × List (Str × Gtp.JobPlayer))) : List (List Str) :=
  match x with
  | .ok r => r.1.toList :: r.2.map (fun e => e.1 :: e.2.cmdArgs)
  | .error e => [[e.msg]]

/-- C74: hypotheses met, and concrete results; and three things which are refused, although the first two seem to be allowed by `_player_settings`: None as the aliases and as the startup
commands (TypeErrors, which become ControlFileErrors), and a startup command which has no words (an IndexError, which does too). -/
theorem C74_witness :
    (exampleKwargs.map Prod.fst).Nodup ∧ DictKeys exampleConf ∧
    playerView (playerFromConfig exampleConf none "p".toList exampleArgs exampleKwargs) =
      [["/home/u/bin/gnugo".toList, "--mode=gtp".toList], ["time_settings".toList, "0".toList, "5".toList, "1".toList], ["set_random_seed".toList, "5".toList],
       ["a".toList, "d".toList], ["b".toList, "c".toList]] ∧
    playersView (initCompetition exampleConf (some "/base".toList) [("players".toList, .obj 4), ("description".toList, .str " text ".toList)]) =
      [["text".toList], ["p1".toList, "/base/bin/x".toList], ["p2".toList, "gnugo".toList, "--mode=gtp".toList]] ∧
    playersView (initCompetition exampleConf none [("players".toList, .obj 4)]) =
      [["player p1: 'command': relative path supplied but base directory isn't set".toList]] ∧
    playerView (playerFromConfig exampleConf none "p".toList exampleArgs [("gtp_aliases".toList, .none)]) = [["'NoneType' object is not iterable".toList]] ∧
    playerView (playerFromConfig exampleConf none "p".toList exampleArgs [("startup_gtp_commands".toList, .none)]) = [["'NoneType' object is not iterable".toList]] ∧
    playerView (playerFromConfig exampleConf none "p".toList exampleArgs [("startup_gtp_commands".toList, .obj 2)]) = [["list index out of range".toList]] := by
  refine ⟨by decide +kernel, ?_, by decide +kernel, by decide +kernel, by decide +kernel, by decide +kernel, by decide +kernel, by decide +kernel⟩
  have text : ∀ {v s}, Text v s → v = .str s ∨ v = .unicode s := by
    intro v s h
    cases h with
    | str => exact .inl rfl
    | unicode => exact .inr rfl
  intro v l h
  unfold exampleConf at h
  simp only at h
  split at h
  · cases h
    refine List.pairwise_pair.2 ?_
    rintro s ⟨h1, h2⟩
    rcases text h1 with h1 | h1
    · rcases text h2 with h2 | h2
      · exact nomatch h2
      · injection h1 with h1; injection h2 with h2
        exact absurd (h1.trans h2.symm) (by decide)
    · exact nomatch h1
  · cases h
    refine List.pairwise_pair.2 ?_
    rintro s ⟨h1, h2⟩
    rcases text h1 with h1 | h1
    · rcases text h2 with h2 | h2
      · injection h1 with h1; injection h2 with h2
        exact absurd (h1.trans h2.symm) (by decide)
      · exact nomatch h2
    · exact nomatch h1
  · cases h

end Gomill.Conf
