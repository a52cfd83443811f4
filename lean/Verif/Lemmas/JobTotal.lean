import Verif.Props.GameJob
import Verif.Props.EngineDesc
import Verif.Props.GtpGame
/-
Setting up players and playing games when all texts are in order.
-/
namespace Gomill.Gtp
open Py
open Gomill.Sgf
open Spec

variable {σ δ τ : Type}

/-- Tidy texts are a class of texts. -/
theorem tidyClass : TextClass Tidy where
  append _ _ ha hb := ha.append hb
  ascii s h := ⟨utf8Valid_of_ascii (fun c hc => (h c hc).1), fun hr => (h _ hr).2 rfl⟩

/-- An open controller with these aliases and this name, whose channel isn't bad, with texts in the class. -/
structure Up (a : List (Str × Str)) (name : Str) (c : Ctl σ) : Prop where
  ok : CtlOK True false c
  texts : CtlT Tidy a name c

/-- After a command sent by such a controller: the only exceptions are BadGtpResponse and GtpChannelError. -/
def UPost (a : List (Str × Str)) (name : Str) {α : Type} (V : α → Prop) : Except CExc α × Ctl σ → Prop
  | (.ok v, c) => Up a name c ∧ V v
  | (.error (.badResponse _ _), c) => Up a name c
  | (.error (.channel _), c) => CtlT Tidy a name c
  | (.error _, _) => False

/-- A response which the channel gives. -/
def Response (C : Channel σ) (r : Str) : Prop := ∃ s f, (C.recv s).1 = .ok (f, r)

/-- What is known of the names of a controller. -/
structure NamesT (a : List (Str × Str)) (name : Str) : Prop where
  name : Tidy name
  tidy : ∀ kv ∈ a, Tidy kv.2
  word : ∀ kv ∈ a, isWellFormedWord kv.2 = true

theorem doCommand_response (C : Channel σ) (c : Ctl σ) (command : Str) (args : List Str) {r : Str} {c' : Ctl σ} (h : c.doCommand C command args = (.ok r, c')) : Response C r := by
  unfold Ctl.doCommand at h
  split at h
  · cases h
  · simp only at h
    split at h
    · cases h
    · split at h
      · cases h
      · split at h
        · cases h
        · rename_i f r' ch hr
          split at h
          · cases h
          · cases h
            exact ⟨_, _, congrArg Prod.fst hr⟩

theorem doCommand_up {C : Channel σ} (hC : TextChannel Tidy C) {a : List (Str × Str)} {name : Str} (hn : NamesT a name) {c : Ctl σ} (h : Up a name c) {command : Str} {args : List Str}
    (hc : Tidy command ∧ isWellFormedWord command = true) (hargs : ∀ x ∈ args, Tidy x ∧ isWellFormedWord x = true) :
    UPost a name (fun r => Tidy r ∧ Response C r) (c.doCommand C command args) := by
  have h1 := doCommand_post C h.ok (command := command) (args := args) ⟨hc.2, fun x hx => (hargs x hx).2⟩
  have h2 := doCommand_T tidyClass hC h.texts hn.name hn.tidy hc.1 (fun x hx => (hargs x hx).1)
  have h3 := fun r c' => doCommand_response C c command args (r := r) (c' := c')
  cases hx : c.doCommand C command args with
  | mk x c' =>
    rw [hx] at h1 h2 h3
    cases x with
    | ok r => exact ⟨⟨h1.1, h2.1⟩, h2.2, h3 r c' rfl⟩
    | error e =>
      cases e with
      | badResponse m g => exact ⟨h1.1, h2.1⟩
      | channel e => exact h2.1
      | value => exact h1.elim
      | channelIsClosed => exact h1.elim

theorem known_up {C : Channel σ} (hC : TextChannel Tidy C) {a : List (Str × Str)} {name : Str} (hn : NamesT a name) {c : Ctl σ} (h : Up a name c) {command : Str}
    (hc : Tidy command ∧ isWellFormedWord command = true) : UPost a name (fun _ => True) (c.knownCommand C false command) := by
  have h1 := knownCommand_post C h.ok hc.2
  have h2 := knownCommand_T tidyClass hC false h.texts hn.name hn.tidy hc.1
  cases hx : c.knownCommand C false command with
  | mk x c' =>
    rw [hx] at h1 h2
    cases x with
    | ok r => exact ⟨⟨h1, h2.1⟩, trivial⟩
    | error e =>
      cases e with
      | badResponse m g => exact h1.1.elim
      | channel e => exact h2.1
      | value => exact h1.elim
      | channelIsClosed => exact h1.elim

theorem tidy_lit {s : Str} (h : s.all (fun c => decide (c.toNat < 128) && decide (c ≠ '\r')) = true) : Tidy s := tidyClass.lit h

theorem ask_up {C : Channel σ} (hC : TextChannel Tidy C) {a : List (Str × Str)} {name : Str} (hn : NamesT a name) {c : Ctl σ} (h : Up a name c) {command : Str}
    (hc : Tidy command ∧ isWellFormedWord command = true) :
    UPost a name (fun r => ∀ s, r = some s → Tidy s ∧ Response C s) (c.askOrNone C command) := by
  have h1 := doCommand_up hC hn h hc (args := []) (fun _ h => nomatch h)
  unfold Ctl.askOrNone
  cases hx : c.doCommand C command [] with
  | mk x c' =>
    rw [hx] at h1
    cases x with
    | ok r => exact ⟨h1.1, by rintro s ⟨⟩; exact h1.2⟩
    | error e =>
      cases e with
      | badResponse m g => exact ⟨h1, fun _ h => nomatch h⟩
      | channel e => exact h1
      | value => exact h1.elim
      | channelIsClosed => exact h1.elim

theorem protocol_up {C : Channel σ} (hC : TextChannel Tidy C) (isTwo : Str → Bool) {a : List (Str × Str)} {name : Str} (hn : NamesT a name) {c : Ctl σ} (h : Up a name c) :
    UPost a name (fun _ => True) (c.checkProtocolVersion C isTwo) := by
  have h1 := doCommand_up hC hn h (command := "protocol_version".toList) (args := []) ⟨tidy_lit (by decide +kernel), by decide +kernel⟩ (fun _ h => nomatch h)
  unfold Ctl.checkProtocolVersion
  cases hx : c.doCommand C "protocol_version".toList [] with
  | mk x c' =>
    rw [hx] at h1
    cases x with
    | ok r =>
      simp only
      split
      · exact ⟨h1.1, trivial⟩
      · exact h1.1
    | error e =>
      cases e with
      | badResponse m g => exact ⟨h1, trivial⟩
      | channel e => exact h1
      | value => exact h1.elim
      | channelIsClosed => exact h1.elim

theorem UPost.bind {a : List (Str × Str)} {name : Str} {α β : Type} {V : α → Prop} {V' : β → Prop} {e : CExc} {c : Ctl σ} (h : UPost a name V ((.error e, c) : Except CExc α × Ctl σ)) :
    UPost a name V' ((.error e, c) : Except CExc β × Ctl σ) := by
  cases e <;> exact h

/-- The responses for an engine description. -/
def Asked3 (C : Channel σ) (x : Option Str × Option Str × Option Str) : Prop :=
  (∀ s, x.1 = some s → Tidy s ∧ Response C s) ∧ (∀ s, x.2.1 = some s → Tidy s ∧ Response C s) ∧ (∀ s, x.2.2 = some s → Tidy s ∧ Response C s)

theorem query_up {C : Channel σ} (hC : TextChannel Tidy C) {a : List (Str × Str)} {name : Str} (hn : NamesT a name) {c : Ctl σ} (h : Up a name c) :
    UPost a name (Asked3 C) (c.queryDescription C) := by
  unfold Ctl.queryDescription
  have h1 := ask_up hC hn h (command := "name".toList) ⟨tidy_lit (by decide +kernel), by decide +kernel⟩
  cases hx : c.askOrNone C "name".toList with
  | mk x c1 =>
    rw [hx] at h1
    cases x with
    | error e => exact h1.bind
    | ok n =>
      have h2 := ask_up hC hn h1.1 (command := "version".toList) ⟨tidy_lit (by decide +kernel), by decide +kernel⟩
      simp only
      cases hy : c1.askOrNone C "version".toList with
      | mk y c2 =>
        rw [hy] at h2
        cases y with
        | error e => exact h2.bind
        | ok v =>
          have h3 := known_up hC hn h2.1 (command := "gomill-describe_engine".toList) ⟨tidy_lit (by decide +kernel), by decide +kernel⟩
          simp only
          cases hz : c2.knownCommand C false "gomill-describe_engine".toList with
          | mk z c3 =>
            rw [hz] at h3
            cases z with
            | error e => exact h3.bind
            | ok k =>
              cases k with
              | false => exact ⟨h3.1, h1.2, h2.2, fun _ h => nomatch h⟩
              | true =>
                have h4 := ask_up hC hn h3.1 (command := "gomill-describe_engine".toList) ⟨tidy_lit (by decide +kernel), by decide +kernel⟩
                simp only
                cases hw : c3.askOrNone C "gomill-describe_engine".toList with
                | mk w c4 =>
                  rw [hw] at h4
                  cases w with
                  | error e => exact h4.bind
                  | ok d => exact ⟨h4.1, h1.2, h2.2, h4.2⟩

theorem startup_up {C : Channel σ} (hC : TextChannel Tidy C) {a : List (Str × Str)} {name : Str} (hn : NamesT a name) : ∀ {l : List (Str × List Str)} {c : Ctl σ}, Up a name c →
    (∀ x ∈ l, ∀ s ∈ x.1 :: x.2, Tidy s ∧ isWellFormedWord s = true) → UPost a name (fun _ => True) (runStartup C l c) := by
  intro l
  induction l with
  | nil => intro c h _; exact ⟨h, trivial⟩
  | cons x l ih =>
    intro c h hl
    have h1 := doCommand_up hC hn h (command := x.1) (args := x.2) (hl x (by simp) _ (by simp)) (fun s hs => hl x (by simp) s (by simp [hs]))
    unfold runStartup
    cases hx : c.doCommand C x.1 x.2 with
    | mk y c1 =>
      rw [hx] at h1
      cases y with
      | error e => exact h1.bind
      | ok r => exact ih h1.1 (fun x hx => hl x (by simp [hx]))

/-- The description of an engine with tidy responses. -/
theorem describe_up {replaceBad : Str → Str} (hr : Replaces replaceBad) {C : Channel σ} (hb : ∀ r c, Response C r → r.getLast? = some c → isSpace c = false)
    {n v d : Option Str} (h : Asked3 C (n, v, d)) :
    ∃ desc, EngineDesc.make replaceBad n v d = .ok desc ∧ (∀ s, desc.short = some s → utf8Valid s = true) ∧ (∀ s, desc.long = some s → Tidy s) := by
  obtain ⟨h1, h2⟩ := C68_attributes replaceBad hr n v d
  cases hm : EngineDesc.make replaceBad n v d with
  | error e =>
    obtain ⟨_, v', c, k1, k2, k3⟩ := h2 e hm
    rw [hb v' c (h.2.1 v' k1).2 k2] at k3
    cases k3
  | ok desc =>
    obtain ⟨_, _, a1, a2, a3, _, _, a4⟩ := h1 desc hm
    obtain ⟨_, _, _, b1, b2, b3, _⟩ := C68_descriptions replaceBad hr n v d desc hm
    refine ⟨desc, rfl, fun s hs => b3 s (.inl hs), fun s hs => ?_⟩
    refine ⟨b3 s (.inr hs), ?_⟩
    have same : ∀ {raw attr : Option Str}, TextOf raw attr → (∀ s, raw = some s → Tidy s ∧ Response C s) → ∀ t, attr = some t → '\r' ∉ t := by
      intro raw attr ht hraw t hat
      cases raw with
      | none => rw [ht.1.2 rfl] at hat; cases hat
      | some s =>
        by_cases hs : s = []
        · rw [ht.1.2 hs] at hat; cases hat
        · have := ht.2.1 s rfl hs (hraw s rfl).1.valid
          rw [hat] at this
          cases this
          exact (hraw t rfl).1.noReturn
    have cl : ∀ c, desc.cleanVersion = some c → '\r' ∉ c := by
      intro c hc hm'
      obtain ⟨_, v', k1, k2⟩ := a4 c hc
      exact same a2 h.2.1 v' k1 (k2.subset hm')
    cases hd : desc.description with
    | some t =>
      rw [b1 t hd] at hs
      cases hs
      exact same a3 h.2.2 _ hd
    | none =>
      rw [b2 hd] at hs
      split at hs
      · cases hc : desc.cleanVersion with
        | none => rw [hc] at hs; cases hs
        | some c =>
          rw [hc] at hs
          simp only [Option.map_some, Option.some.injEq] at hs
          rw [← hs]
          have : '\r' ∉ "version ".toList := by decide +kernel
          simp [this, cl c hc]
      · rename_i hne
        split at hs
        · exact same a1 h.1 _ hs
        · rename_i hne'
          cases hs
          obtain ⟨n', hn'⟩ := Option.ne_none_iff_exists'.1 hne
          obtain ⟨c', hc'⟩ := Option.ne_none_iff_exists'.1 hne'
          rw [hn', hc']
          simp [same a1 h.1 n' hn', cl c' hc']

/-- Setting up a player: the only exceptions are GTP errors. -/
theorem setUpPlayer_good (W : JobWorld σ) (hC : TextChannel Tidy W.channel) (hb : ∀ r c, Response W.channel r → r.getLast? = some c → isSpace c = false) (hr : Replaces W.replaceBad)
    (p : JobPlayer) (hn : NamesT p.aliases ("player ".toList ++ p.code)) (hst : ∀ x ∈ p.startup, ∀ s ∈ x.1 :: x.2, Tidy s ∧ isWellFormedWord s = true) (chan : σ) :
    ∃ r d x a, setUpPlayer W p (Ctl.init chan ("player ".toList ++ p.code)) = (r, d, x) ∧ r ≠ .error .other ∧ NamesT a ("player ".toList ++ p.code) ∧
      CtlT Tidy a ("player ".toList ++ p.code) x ∧
      (r = .ok () → Up p.aliases ("player ".toList ++ p.code) x ∧ ∃ desc, d = some desc ∧ (∀ s, desc.short = some s → utf8Valid s = true) ∧ (∀ s, desc.long = some s → Tidy s)) := by
  have hn0 : NamesT [] ("player ".toList ++ p.code) := ⟨hn.name, (fun _ h => nomatch h), (fun _ h => nomatch h)⟩
  have h0 : Up [] ("player ".toList ++ p.code) (Ctl.init chan ("player ".toList ++ p.code)) :=
    ⟨⟨rfl, (fun _ h => nomatch h), fun _ _ => rfl, (fun h => nomatch h)⟩, ⟨rfl, rfl, (fun _ h => nomatch h)⟩⟩
  have err : ∀ {a : List (Str × Str)} {α : Type} {V : α → Prop} {e : CExc} {c : Ctl σ}, NamesT a ("player ".toList ++ p.code) →
      UPost a ("player ".toList ++ p.code) V ((.error e, c) : Except CExc α × Ctl σ) → (Except.error e.toStop : Except Stop Unit) ≠ .error .other ∧ CtlT Tidy a ("player ".toList ++ p.code) c := by
    intro a α V e c _ h
    cases e with
    | badResponse m g => exact ⟨(fun h => nomatch h), h.texts⟩
    | channel e => exact ⟨(fun h => nomatch h), h⟩
    | value => exact h.elim
    | channelIsClosed => exact h.elim
  unfold setUpPlayer
  have h1 := protocol_up hC W.isTwo hn0 h0
  cases hx : (Ctl.init chan ("player ".toList ++ p.code)).checkProtocolVersion W.channel W.isTwo with
  | mk x c1 =>
    rw [hx] at h1
    cases x with
    | error e => obtain ⟨k1, k2⟩ := err hn0 h1; exact ⟨_, _, _, _, rfl, k1, hn0, k2, (fun h => nomatch h)⟩
    | ok u =>
      simp only
      have h2 := query_up hC hn0 h1.1
      cases hy : c1.queryDescription W.channel with
      | mk y c2 =>
        rw [hy] at h2
        cases y with
        | error e => obtain ⟨k1, k2⟩ := err hn0 h2; exact ⟨_, _, _, _, rfl, k1, hn0, k2, (fun h => nomatch h)⟩
        | ok q =>
          obtain ⟨n, v, d⟩ := q
          obtain ⟨desc, e1, e2, e3⟩ := describe_up hr hb h2.2
          simp only [e1]
          have h3 : Up p.aliases ("player ".toList ++ p.code) (c2.setAliases p.aliases) :=
            ⟨⟨h2.1.ok.opened, hn.word, h2.1.ok.live, h2.1.ok.reported⟩, ⟨rfl, h2.1.texts.name, h2.1.texts.errors⟩⟩
          have h4 := startup_up hC hn h3 hst
          cases hz : runStartup W.channel p.startup (c2.setAliases p.aliases) with
          | mk z c3 =>
            rw [hz] at h4
            cases z with
            | error e => obtain ⟨k1, k2⟩ := err hn h4; exact ⟨_, _, _, _, rfl, k1, hn, k2, (fun h => nomatch h)⟩
            | ok u => exact ⟨_, _, _, _, rfl, (fun h => nomatch h), hn, h4.1.texts, fun _ => ⟨h4.1, desc, rfl, e2, e3⟩⟩

/-! ### Playing the game -/

/-- The assumptions about a job: its texts, and those of the engines, are UTF-8 without carriage returns, and aliases and startup commands are well-formed; the engines' responses don't end in
whitespace (those of a Linebased_gtp_channel never do); the board size is one which competitions allow; the komi is a float; UTF-8 is known. -/
structure GoodJob (W : JobWorld σ) (job : GameJob δ) (isFloat : Rat → Prop) : Prop where
  channel : TextChannel Tidy W.channel
  noBlank : ∀ r c, Response W.channel r → r.getLast? = some c → isSpace c = false
  replaces : Replaces W.replaceBad
  size : 2 ≤ job.boardSize ∧ job.boardSize ≤ 25
  komi : isFloat job.komi
  komiWord : isWellFormedWord (W.strFloat job.komi) = true
  numbers : ∀ q, Tidy (W.strFloat q) ∧ Tidy (W.twoPlaces q)
  excs : ∀ k, k = 0 ∨ k = 1 → Tidy (W.excText (.backend k))
  names : NamesOK W.E
  utf8 : W.E.normalise "UTF-8".toList = some "UTF-8".toList ∧ W.E.codec "UTF-8".toList = utf8Codec
  floats : FloatsOK W.F isFloat
  code : ∀ c, Tidy (job.player c).code
  aliases : ∀ c, ∀ kv ∈ (job.player c).aliases, Tidy kv.2 ∧ isWellFormedWord kv.2 = true
  startup : ∀ c, ∀ x ∈ (job.player c).startup, ∀ s ∈ x.1 :: x.2, Tidy s ∧ isWellFormedWord s = true
  gameId : Tidy job.gameId
  event : ∀ s, job.sgfEvent = some s → Tidy s
  name : ∀ s, job.sgfGameName = some s → utf8Valid s = true
  note : ∀ s, job.sgfNote = some s → Tidy s
  now : Tidy W.now
  version : utf8Valid W.version = true
  date : utf8Valid W.date = true

variable {W : JobWorld σ} {job : GameJob δ} {isFloat : Rat → Prop}

theorem GoodJob.namesT (h : GoodJob W job isFloat) (c : Colour) : NamesT (job.player c).aliases ("player ".toList ++ (job.player c).code) :=
  ⟨(tidy_lit (by decide +kernel)).append (h.code c), fun kv hkv => (h.aliases c kv hkv).1, fun kv hkv => (h.aliases c kv hkv).2⟩

/-- What stays the same in the job's game controller. -/
def jobFixed (job : GameJob δ) : Fixed := ⟨fun c => (job.player c).aliases, fun c => "player ".toList ++ (job.player c).code, fun c => (job.player c).code⟩

theorem GoodJob.fixed (h : GoodJob W job isFloat) : FixedT Tidy (jobFixed job) :=
  ⟨fun c kv hkv => (h.aliases c kv hkv).1, fun c => (h.namesT c).name, h.code⟩

theorem gtp_utf8 (h : GoodJob W job isFloat) : Utf8Comments (gtpBackend (fun _ => W.channel) (jobCfg W job)) := by
  intro c env s hs
  change (getLastMoveComment (fun _ => W.channel) (jobCfg W job) c env).1 = _ at hs
  unfold getLastMoveComment at hs
  split at hs
  · cases hs
  · cases hs
  · rename_i t gc _
    simp only [Except.ok.injEq] at hs
    split at hs
    · cases hs
    · cases hs
      unfold sanitiseUtf8
      split
      · assumption
      · rename_i hv
        exact h.replaces.valid _ (by simpa using hv)

/-- Everything in a score's text. -/
theorem fromScore_tidy {fmt : Rat → Str} (hfmt : ∀ q, Tidy (fmt q)) {w : Option Colour} {m : Option Num} {d : Option Str} {r : Res}
    (h : Res.fromScore fmt w m d = .ok r) : Tidy r.sgfResult := by
  refine ⟨(fromScore_names (fun q => (hfmt q).valid) h).2, ?_⟩
  have hi : ∀ i, '\r' ∉ strInt i := by
    intro i hm
    have hw := word_strInt i
    unfold isWellFormedWord at hw
    simp only [Bool.and_eq_true, List.all_eq_true] at hw
    have := hw.2 _ hm
    exact absurd this (by decide)
  unfold Res.fromScore at h
  cases m with
  | none =>
    cases h
    cases w with
    | none => show '\r' ∉ ['?']; decide
    | some c => show '\r' ∉ [c.upper, '+']; cases c <;> decide
  | some m =>
    simp only at h
    split at h
    · cases h
    · cases w with
      | none =>
        simp only at h
        split at h
        · cases h; show '\r' ∉ ['0']; decide
        · cases h
      | some c =>
        simp only at h
        split at h
        · cases h
        · cases hf : formatFloat fmt m with
          | error e => rw [hf] at h; cases h
          | ok s =>
            rw [hf] at h
            cases h
            have hs : '\r' ∉ s := by
              unfold formatFloat at hf
              cases m with
              | fin q =>
                simp only [Except.ok.injEq] at hf
                rw [← hf]
                split
                · exact hi _
                · exact (hfmt q).noReturn
              | _ => cases hf
            show '\r' ∉ [c.upper, '+'] ++ s
            simp only [List.mem_append, not_or]
            exact ⟨by cases c <;> decide, hs⟩

theorem prepare_keep {B : Backend τ} {r r' : Runner τ} {x : Except GExc Unit} (h : r.prepare B = (x, r')) :
    r'.moves = r.moves ∧ r'.moveLimit = r.moveLimit ∧ r'.boardSize = r.boardSize ∧ r'.komi = r.komi ∧ r'.handicapStones = r.handicapStones := by
  unfold Runner.prepare at h
  split at h
  · cases h; exact ⟨rfl, rfl, rfl, rfl, rfl⟩
  · split at h <;> (rename_i he; rw [call_snd he] at h; cases h; exact ⟨rfl, rfl, rfl, rfl, rfl⟩)

theorem setHandicap_keep {B : Backend τ} {r r' : Runner τ} {x : Except GExc Unit} {k : Int} {free : Bool} (h : r.setHandicap B k free = (x, r')) :
    r'.moves = r.moves ∧ r'.moveLimit = r.moveLimit ∧ r'.boardSize = r.boardSize ∧ r'.komi = r.komi := by
  unfold Runner.setHandicap Runner.finishHandicap at h
  split at h
  · cases h; exact ⟨rfl, rfl, rfl, rfl⟩
  · split at h
    · split at h
      · cases h; exact ⟨rfl, rfl, rfl, rfl⟩
      · split at h
        · rename_i he; rw [call_snd he] at h; cases h; exact ⟨rfl, rfl, rfl, rfl⟩
        · rename_i he
          split at h <;> (rename_i he'; rw [call_snd he', call_snd he] at h; cases h; exact ⟨rfl, rfl, rfl, rfl⟩)
    · split at h
      · cases h; exact ⟨rfl, rfl, rfl, rfl⟩
      · split at h
        · rename_i he; rw [call_snd he] at h; cases h; exact ⟨rfl, rfl, rfl, rfl⟩
        · rename_i he
          split at h <;> (rename_i he'; rw [call_snd he', call_snd he] at h; cases h; exact ⟨rfl, rfl, rfl, rfl⟩)

/-- When they were asked for the score, an engine said the margin was an infinity or a NaN. -/
def OddMargin (W : JobWorld σ) (job : GameJob δ) (g : GtpGame σ Unit) : Prop :=
  job.useInternalScorer = false ∧ ∃ c s w x, (c, s) ∈ g.runner.env.scores ∧ Gomill.Gtp.Says W.float s (some w) (some x) ∧ (x = .inf ∨ x = .nan)

theorem unscored_tidy {n : Nat} {b0 : Board} {first : Colour} {limit : Option Int} {h : List Go.Mv} {e : Option Ending} {g : Game}
    (hn : n ≤ 25) (hb : ReachableBoard n b0) (hp : Played n b0 first limit h e g) (ho : g.isOver = true) (hnp : g.passedOut = false)
    {r : Res} (hr : Res.fromUnscoredGame g = .ok r) : Tidy r.sgfResult := by
  refine ⟨(unscored_names hn hb hp ho hnp hr).2, ?_⟩
  obtain ⟨r', e1, e2, _, _, e3, e4, e5, e6, e7⟩ := C30_unscored hn hb hp ho hnp
  rw [hr] at e1
  cases e1
  cases e with
  | none => rw [(e3 rfl).1]; decide +kernel
  | some x =>
    cases x with
    | resigned c => rw [(e4 c rfl).1]; cases c <;> decide +kernel
    | claimed c => rw [(e5 c rfl).1]; cases c <;> decide +kernel
    | forfeited c x => rw [(e6 c x rfl).1]; cases c <;> decide +kernel
    | illegal c p => rw [(e7 c p rfl).1]; cases c <;> decide +kernel

theorem run_good (h : GoodJob W job isFloat) {g0 : GtpGame σ Unit} (hg : Ready (fun _ => W.channel) (jobCfg W job) g0) (hlim : g0.runner.moveLimit = some job.moveLimit) {fuel : Nat}
    (hf : max job.moveLimit.toNat 1 ≤ fuel) :
    ∃ r g game, g0.run (fun _ => W.channel) (jobCfg W job) W.strFloat fuel = some (r, g, game) ∧ g.runner.handicapStones = g0.runner.handicapStones ∧
      (r = .ok () ∨ r = .error (.backend 1) ∨ (∃ e, r = .error e ∧ e.toStop W.excText = .other) ∧ OddMargin W job g) ∧
      Recordable isFloat g.runner ∧
      (∀ k, g.runner.haProp = some k → 2 ≤ k) ∧ (∀ rr, g.runner.result = some rr → Tidy rr.sgfResult) := by
  have hsz : 2 ≤ (jobCfg W job).boardSize ∧ (jobCfg W job).boardSize ≤ 25 := h.size
  have hk : isWellFormedWord (jobCfg W job).komiText = true := h.komiWord
  obtain ⟨⟨r, g, game⟩, hrun⟩ := C58_terminates (fun _ => W.channel) (jobCfg W job) hk hsz.2 W.strFloat hg _ hlim fuel hf
  have hi := hg.inv hk hsz.2
  obtain ⟨gm, _, _, _, hok, herr⟩ := C58_run (fun _ => W.channel) (jobCfg W job) hk hsz W.strFloat hg fuel r g game hrun
  obtain ⟨r1, x, h1, h2, h3, env', h4⟩ := gtpRun_cases (fun _ => W.channel) (jobCfg W job) W.strFloat fuel g0 r g game hrun
  have hinv := run_inv (gtp_utf8 h) W.strFloat hi.moves (prepared_more hg.prepared).1 h1
  have hsize : g0.runner.boardSize ≤ 25 := by rw [hi.size]; exact hsz.2
  obtain ⟨hmv, herr1, hok1⟩ := C31_run (gtpBackend (fun _ => W.channel) (jobCfg W job)) W.strFloat g0.runner hg.prepared hsize fuel r1 x game h1
  have hres : ∀ rr, x.result = some rr → Tidy rr.sgfResult := by
    intro rr hrr
    cases r1 with
    | error e => rw [herr1 e rfl] at hrr; cases hrr
    | ok u =>
      obtain ⟨b0, hh, e, g2, c1, _, _, c2, c3, rr', c4, c5, c6⟩ := hok1 rfl
      rw [c4] at hrr
      cases hrr
      cases hpo : g2.passedOut with
      | true =>
        obtain ⟨sc, env, _, _, c7⟩ := c5 hpo
        exact fromScore_tidy (fun q => (h.numbers q).1) c7
      | false => exact unscored_tidy hsize c1.reachable c2 c3 hpo (c6 hpo).1
  refine ⟨r, g, game, hrun, by rw [h4]; exact hinv.stones, ?_, ?_, ?_, ?_⟩
  · cases r with
    | ok u => exact .inl rfl
    | error e =>
      right
      rcases (herr e rfl).2 with ⟨rfl, _⟩ | ⟨k, c, m, b, u, _, q2⟩ | ⟨_, q1, c, s, w, x, q2, q3, q4⟩
      · exact .inl rfl
      · exact nomatch q2
      · refine .inr ⟨⟨e, rfl, ?_⟩, q1, c, s, w, x, q2, q3, ?_⟩
        · rcases q4 with ⟨_, rfl⟩ | ⟨_, rfl⟩ <;> rfl
        · rcases q4 with ⟨rfl, _⟩ | ⟨rfl, _⟩
          · exact .inl rfl
          · exact .inr rfl
  · rw [h4]
    have e1 : x.boardSize = job.boardSize := hinv.size.trans hi.size
    have e2 : x.komi = job.komi := hinv.komi.trans hi.komi
    refine ⟨?_, ?_, ?_, hinv.comments, hinv.final, fun rr hrr => (hres rr hrr).valid, ?_⟩
    · show 2 ≤ x.boardSize ∧ x.boardSize ≤ 25
      rw [e1]; exact h.size
    · show isFloat x.komi
      rw [e2]; exact h.komi
    · show ∀ y ∈ x.moves, ∀ p, y.2.1 = some p → Go.OnBoard x.boardSize p
      rw [hinv.size]
      intro y hy p hyp
      have hxm : (y.1, y.2.1) ∈ movesOf x := List.mem_map.2 ⟨y, hy, rfl⟩
      rcases hmv with hmv | ⟨b0, first, hh, e, g, _, _, hpl, hh'⟩
      · rw [hmv] at hxm; cases hxm
      · refine played_onBoard hpl (y.1, y.2.1) ?_ p hyp
        rcases hh' with hh' | ⟨m, c, y', hh', _⟩
        · rw [← hh']; exact hxm
        · rw [hh']; exact List.mem_append_left _ hxm
    · show ∀ p ∈ x.handicapStones.getD [], Go.OnBoard x.boardSize p
      rw [e1, hinv.stones]; exact hi.stones
  · rw [h4]
    show ∀ k, x.haProp = some k → 2 ≤ k
    rw [hinv.ha]
    exact (prepared_more hg.prepared).2
  · rw [h4]; exact hres

theorem Counted.describe {code : Colour → Str} {gameId : Option Str} {res : Res} {r : GameResult} (h : Counted code gameId res r) :
    r.describe = (GameResult.setPlayers res (code .b) (code .w)).describe := by
  unfold GameResult.describe GameResult.losingPlayer
  rw [h.same, h.winner, h.players]
  rfl

theorem Counted.tidy {code : Colour → Str} {gameId : Option Str} {res : Res} {r : GameResult} (h : Counted code gameId res r) (hc : ∀ c, Tidy (code c)) (hs : Tidy res.sgfResult)
    (hd : DetailOK Tidy (some res)) : Tidy r.describe := by
  rw [h.describe]
  obtain ⟨_, d1, d2, d3, d4⟩ := C69_describe res (code .b) (code .w)
  have hp : ∀ c, Tidy (player (code .b) (code .w) c) := by intro c; cases c <;> exact hc _
  have hb : Tidy (inBrackets (GameResult.setPlayers res (code .b) (code .w)).res.detail) := by
    have hdet : ∀ s, (GameResult.setPlayers res (code .b) (code .w)).res.detail = some s → Tidy s := by
      intro s hs'
      unfold GameResult.setPlayers at hs'
      simp only at hs'
      split at hs'
      · cases hs'
        refine ((((tidy_lit (by decide +kernel)).append ?_)).append (tidy_lit (by decide +kernel))).append ?_
        · cases res.losingColour with
          | none => show Tidy "None".toList; exact tidy_lit (by decide +kernel)
          | some c => cases c <;> exact hc _
        · cases hdt : res.detail with
          | none => exact tidy_lit (by decide +kernel)
          | some t => exact hd res t rfl hdt
      · exact hd res s rfl hs'
    unfold inBrackets
    split
    · rename_i s he
      exact ((tidy_lit (by decide +kernel)).append (hdet s he)).append (tidy_lit (by decide +kernel))
    · exact tidy_lit (by decide +kernel)
  have hj : Tidy (if res.isJigo then "jigo".toList else res.sgfResult) := by
    split
    · exact tidy_lit (by decide +kernel)
    · exact hs
  cases hw : res.winningColour with
  | some c =>
    rw [d3 c hw]
    exact (((((hp c).append (tidy_lit (by decide +kernel))).append (hp _)).append (tidy_lit (by decide +kernel))).append hj).append hb
  | none =>
    rw [d4 hw]
    exact (((((hc .b).append (tidy_lit (by decide +kernel))).append (hc .w)).append (tidy_lit (by decide +kernel))).append hj).append hb

theorem playGame_good (h : GoodJob W job isFloat) {b w : Ctl σ} (hb : Up (job.player .b).aliases ("player ".toList ++ (job.player .b).code) b)
    (hw : Up (job.player .w).aliases ("player ".toList ++ (job.player .w).code) w) {fuel : Nat} (hf : max job.moveLimit.toNat 1 ≤ fuel) :
    ∃ x g, playGame W job fuel (startedGame W job b w) = some (x, g) ∧ EnvT Tidy (jobFixed job) g.runner.env ∧ g.gameId = some job.gameId ∧
      (∀ m, x = .error (.gtp m) → Tidy m ∧ g.result = none) ∧ (x = .error .other → OddMargin W job g) ∧
      (x = .ok () ∨ g.runner.moves ≠ [] → Recordable isFloat g.runner) ∧ (∀ k, g.runner.haProp = some k → 2 ≤ k) ∧
      (x = .ok () → ∃ rr errors r, g.runner.result = some rr ∧ DetailOK Tidy (some rr) ∧ Tidy rr.sgfResult ∧ g.result = some r ∧ g.cpuTimeErrors = some errors ∧
        Counted (fun c => (job.player c).code) (some job.gameId) rr r) := by
  have hsz : 2 ≤ (jobCfg W job).boardSize ∧ (jobCfg W job).boardSize ≤ 25 := h.size
  have hk : isWellFormedWord (jobCfg W job).komiText = true := h.komiWord
  have hsound : Sound (startedGame W job b w).runner.env.gc := by
    intro c
    cases c
    · exact ⟨hb.ok.opened, hb.ok.live rfl trivial, hb.ok.aliases⟩
    · exact ⟨hw.ok.opened, hw.ok.live rfl trivial, hw.ok.aliases⟩
  have henv : EnvT Tidy (jobFixed job) (startedGame W job b w).runner.env := by
    refine ⟨⟨?_, rfl⟩, fun _ h => nomatch h⟩
    intro c
    cases c
    · exact hb.texts
    · exact hw.texts
  suffices hs : ∃ x g, playGame W job fuel (startedGame W job b w) = some (x, g) ∧ (∀ m, x = .error (.gtp m) → Tidy m ∧ g.result = none) ∧ (x = .error .other → OddMargin W job g) ∧
      (x = .ok () ∨ g.runner.moves ≠ [] → Recordable isFloat g.runner) ∧ (∀ k, g.runner.haProp = some k → 2 ≤ k) ∧
      (∀ rr, g.runner.result = some rr → Tidy rr.sgfResult) by
    obtain ⟨x, g, h1, h2, h3, h4, h5, h6⟩ := hs
    obtain ⟨t1, t2, t3⟩ := playGame_texts W job tidyClass h.channel h.fixed (h.numbers _).1 henv rfl rfl h1
    refine ⟨x, g, h1, t1, t2, h2, h3, h4, h5, ?_⟩
    intro hx
    obtain ⟨rr, errors, r, a1, a2, a3, a4, a5⟩ := t3 hx
    exact ⟨rr, errors, r, a1, a2, h6 rr a1, a3, a4, a5⟩
  obtain ⟨r, g1, hp, _, _, hcase⟩ := C58_prepare (fun _ => W.channel) (jobCfg W job) hk (startedGame W job b w).runner.env.gc hsound.usable () (some job.moveLimit) (some job.gameId)
  have hp' : (startedGame W job b w).prepare (fun _ => W.channel) (jobCfg W job) = (r, g1) := hp
  have hkeep : g1.runner.moves = [] ∧ g1.runner.moveLimit = some job.moveLimit ∧ g1.runner.handicapStones = none ∧ g1.runner.result = none ∧ g1.result = none ∧
      (∀ k, g1.runner.haProp = some k → 2 ≤ k) := by
    unfold GtpGame.prepare at hp'
    cases hq : (startedGame W job b w).runner.prepare (gtpBackend (fun _ => W.channel) (jobCfg W job)) with
    | mk z r1 =>
      rw [hq] at hp'
      cases hp'
      obtain ⟨k1, k2, _, _, k3⟩ := prepare_keep hq
      refine ⟨k1, k2, k3, prepare_noResult hq, rfl, ?_⟩
      have hpre : Prepared (gtpBackend (fun _ => W.channel) (jobCfg W job)) r1 := by
        rw [show r1 = ((startedGame W job b w).runner.prepare (gtpBackend (fun _ => W.channel) (jobCfg W job))).2 from (congrArg Prod.snd hq).symm]
        exact .prepare (.init _ _ _ _)
      exact (prepared_more hpre).2
  unfold playGame
  rw [hp']
  have fail : ∀ {g : GtpGame σ Unit} {m : Str}, g.runner.moves = [] → g.runner.result = none → g.result = none → (∀ k, g.runner.haProp = some k → 2 ≤ k) → Tidy m → 
      ∃ x g', (some (Except.error (Stop.gtp m), g) : Option (Except Stop Unit × GtpGame σ Unit)) = some (x, g') ∧ (∀ m, x = .error (.gtp m) → Tidy m ∧ g'.result = none) ∧
      (x = .error .other → OddMargin W job g') ∧
      (x = .ok () ∨ g'.runner.moves ≠ [] → Recordable isFloat g'.runner) ∧ (∀ k, g'.runner.haProp = some k → 2 ≤ k) ∧
      (∀ rr, g'.runner.result = some rr → Tidy rr.sgfResult) := by
    intro g m h1 h2 h3 h4 h5
    refine ⟨_, _, rfl, ?_, (fun h => nomatch h), ?_, h4, fun rr h => by rw [h2] at h; cases h⟩
    · rintro m ⟨⟩; exact ⟨h5, h3⟩
    · rintro (h | h)
      · cases h
      · exact absurd h1 h
  obtain ⟨k1, k2, k3, k4, k5, k6⟩ := hkeep
  rcases hcase with ⟨rfl, hst, hs1⟩ | ⟨rfl, _⟩ | ⟨rfl, _⟩
  · simp only
    have hready : Ready (fun _ => W.channel) (jobCfg W job) g1 := .prepare _ _ _ _ _ hsound.usable hp
    have key : ∀ (hh : Except Stop Unit × GtpGame σ Unit),
        (hh.1 = .ok () → Ready (fun _ => W.channel) (jobCfg W job) hh.2 ∧ hh.2.runner.moveLimit = some job.moveLimit) →
        (hh.1 ≠ .ok () → (∃ m, hh.1 = .error (.gtp m) ∧ Tidy m) ∧ hh.2.runner.moves = [] ∧ hh.2.runner.result = none ∧ hh.2.result = none ∧ (∀ k, hh.2.runner.haProp = some k → 2 ≤ k)) →
        ∃ (x : Except Stop Unit) (g : GtpGame σ Unit), (match hh with
          | (.error e, g) => some (.error e, g)
          | (.ok (), g) => match g.run (fun _ => W.channel) (jobCfg W job) W.strFloat fuel with
            | none => none
            | some (.error e, g, _) => some (.error (e.toStop W.excText), g)
            | some (.ok (), g, _) => some (.ok (), g)) = some (x, g) ∧ (∀ m, x = .error (.gtp m) → Tidy m ∧ g.result = none) ∧ (x = .error .other → OddMargin W job g) ∧
          (x = .ok () ∨ g.runner.moves ≠ [] → Recordable isFloat g.runner) ∧ (∀ k, g.runner.haProp = some k → 2 ≤ k) ∧
          (∀ rr, g.runner.result = some rr → Tidy rr.sgfResult) := by
      rintro ⟨y, g2⟩ hok herr
      cases y with
      | error e =>
        obtain ⟨⟨m, hm, hm'⟩, e1, e2, e3, e4⟩ := herr (fun h => nomatch h)
        cases hm
        exact fail e1 e2 e3 e4 hm'
      | ok u =>
        obtain ⟨o1, o2⟩ := hok rfl
        obtain ⟨r, g, game, hrun, s1, s2, s3, s4, s5⟩ := run_good h o1 o2 hf
        simp only [hrun]
        obtain ⟨_, _, _, _, _, herr'⟩ := C58_run (fun _ => W.channel) (jobCfg W job) hk hsz W.strFloat o1 fuel r g game hrun
        cases r with
        | ok u => exact ⟨_, _, rfl, (fun _ h => nomatch h), (fun h => nomatch h), fun _ => s3, s4, s5⟩
        | error e =>
          refine ⟨_, _, rfl, ?_, ?_, fun _ => s3, s4, s5⟩
          · intro m hm
            refine ⟨?_, (herr' e rfl).1⟩
            rcases s2 with s2 | s2 | ⟨⟨e', s2, s2'⟩, _⟩
            · cases s2
            · cases s2
              cases hm
              exact h.excs 1 (.inr rfl)
            · cases s2
              rw [s2'] at hm
              cases hm
          · intro hm
            rcases s2 with s2 | s2 | ⟨_, s2⟩
            · cases s2
            · cases s2
              cases hm
            · exact s2
    apply key
    · intro hok
      cases hh : job.handicap with
      | none =>
        rw [hh] at hok
        exact ⟨hready, k2⟩
      | some k =>
        rw [hh] at hok
        simp only at hok ⊢
        split
        · exact ⟨hready, k2⟩
        · rename_i hk0
          rw [if_neg hk0] at hok
          obtain ⟨r, g2, hs, _, _, _, _, z1, z2, _, z3⟩ := C58_set_handicap (fun _ => W.channel) (jobCfg W job) hk hsz.2 hready k job.handicapIsFree
          rw [hs] at hok ⊢
          have hq := hs
          unfold GtpGame.setHandicap at hq
          cases hq' : ({ g1.runner with env := { g1.runner.env with handicap := some k } } : Runner (GEnv σ Unit)).setHandicap (gtpBackend (fun _ => W.channel) (jobCfg W job)) k job.handicapIsFree with
          | mk z r1 =>
            rw [hq'] at hq
            obtain ⟨q1, q2, _, _⟩ := setHandicap_keep hq'
            cases hq
            have hr : r = .ok () := by
              cases r with
              | ok u => rfl
              | error e => exfalso; cases e with
                | py e => cases e <;> exact nomatch hok
                | _ => exact nomatch hok
            subst hr
            exact ⟨.handicap _ _ _ _ _ hready hs (fun h => nomatch h), q2.trans k2⟩
    · intro hne
      cases hh : job.handicap with
      | none => rw [hh] at hne; exact absurd rfl hne
      | some k =>
        rw [hh] at hne
        simp only at hne ⊢
        split
        · rename_i hk0; rw [if_pos hk0] at hne; exact absurd rfl hne
        · rename_i hk0
          rw [if_neg hk0] at hne
          obtain ⟨r, g2, hs, _, _, _, _, z1, z2, _, z3⟩ := C58_set_handicap (fun _ => W.channel) (jobCfg W job) hk hsz.2 hready k job.handicapIsFree
          rw [hs] at hne ⊢
          have hq := hs
          unfold GtpGame.setHandicap at hq
          cases hq' : ({ g1.runner with env := { g1.runner.env with handicap := some k } } : Runner (GEnv σ Unit)).setHandicap (gtpBackend (fun _ => W.channel) (jobCfg W job)) k job.handicapIsFree with
          | mk z r1 =>
            rw [hq'] at hq
            obtain ⟨q1, q2, _, _⟩ := setHandicap_keep hq'
            have q3 := setHandicap_noResult hq'
            have hpre : Prepared (gtpBackend (fun _ => W.channel) (jobCfg W job)) r1 := by
              rw [show r1 = (({ g1.runner with env := { g1.runner.env with handicap := some k } } : Runner (GEnv σ Unit)).setHandicap (gtpBackend (fun _ => W.channel) (jobCfg W job)) k job.handicapIsFree).2 from (congrArg Prod.snd hq').symm]
              exact .handicap _ _ (.backend _ hready.prepared)
            cases hq
            have fin : ({ g1 with runner := r1 } : GtpGame σ Unit).runner.moves = [] ∧ ({ g1 with runner := r1 } : GtpGame σ Unit).runner.result = none ∧ ({ g1 with runner := r1 } : GtpGame σ Unit).result = none ∧
                (∀ k, ({ g1 with runner := r1 } : GtpGame σ Unit).runner.haProp = some k → 2 ≤ k) := ⟨q1.trans k1, q3.trans k4, k5, (prepared_more hpre).2⟩
            cases r with
            | ok u => exact absurd rfl hne
            | error e =>
              by_cases hko : HandicapOK (jobCfg W job).boardSize k job.handicapIsFree
              · rcases z3 hst hko with ⟨hx, _⟩ | ⟨hx, _⟩ | ⟨hx, _⟩
                · cases hx
                · cases hx; exact ⟨⟨_, rfl, h.excs 0 (.inl rfl)⟩, fin⟩
                · cases hx; exact ⟨⟨_, rfl, h.excs 1 (.inr rfl)⟩, fin⟩
              · have := z2.2 ⟨hst, hko⟩
                cases this
                exact ⟨⟨_, rfl, tidy_lit (by decide +kernel)⟩, fin⟩
  · exact fail k1 k4 k5 k6 (h.excs 0 (.inl rfl))
  · exact fail k1 k4 k5 k6 (h.excs 1 (.inr rfl))

end Gomill.Gtp
