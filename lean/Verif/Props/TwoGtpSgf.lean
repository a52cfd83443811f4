import Verif.Props.TwoGtp
import Verif.Props.JobTotal
/-
C102: the SGF files which twogtp writes.
-/
namespace Gomill.Gtp
open Py
open Gomill.Sgf
open Spec

variable {σ : Type}

/-- The assumptions about the run: the engines' responses and error messages, the commands and the text of numbers are UTF-8 without carriage returns; the komi is a float; UTF-8 is known. -/
structure GoodTwo (W : TwoWorld σ) (o : TwoOpts) (isFloat : Rat → Prop) : Prop where
  channel : TextChannel Tidy W.channel
  replaces : Replaces W.replaceBad
  size : 2 ≤ o.size ∧ o.size ≤ 25
  komi : isFloat o.komi
  komiWord : isWellFormedWord (W.strFloat o.komi) = true
  numbers : ∀ q, Tidy (W.strFloat q)
  commands : ∀ s w ws, o.black = some s ∨ o.white = some s → W.shlex s = some (w :: ws) → Tidy w
  names : Sgf.NamesOK W.E
  utf8 : W.E.normalise "UTF-8".toList = some "UTF-8".toList ∧ W.E.codec "UTF-8".toList = Sgf.utf8Codec
  floats : Sgf.FloatsOK W.F isFloat
  version : utf8Valid W.version = true
  date : utf8Valid W.date = true

variable {W : TwoWorld σ} {o : TwoOpts} {isFloat : Rat → Prop} {d : Colour → EngineDesc}

/-- What stays the same. -/
def twoFixed (code : Colour → Str) : Fixed := ⟨fun _ => [], fun c => "player ".toList ++ code c, code⟩

theorem codes_tidy {b w : Str} {code : Colour → Str} (h : Codes b w code) (hb : Tidy b) (hw : Tidy w) : ∀ c, Tidy (code c) := by
  by_cases he : b = w
  · obtain ⟨h1, h2⟩ := h.same he
    intro c
    cases c
    · rw [h1]; exact hb.append (tidy_lit (by decide +kernel))
    · rw [h2]; exact hw.append (tidy_lit (by decide +kernel))
  · obtain ⟨h1, h2⟩ := h.differ he
    intro c
    cases c
    · rw [h1]; exact hb
    · rw [h2]; exact hw

theorem newPlayer_up (h : GoodTwo W o isFloat) {args : List Str} {name : Str} (hn : Tidy name) {x : Ctl σ} {e : EngineDesc} (hp : NewPlayer W args name x e) :
    Up [] name x ∧ ∀ s, e.short = some s → utf8Valid s = true := by
  obtain ⟨chan, c1, n, v, t, _, h1, h2, h3⟩ := hp
  have hn0 : NamesT [] name := ⟨hn, (fun _ h => nomatch h), (fun _ h => nomatch h)⟩
  have h0 : Up [] name (Ctl.init chan name) := ⟨⟨rfl, (fun _ h => nomatch h), fun _ _ => rfl, (fun h => nomatch h)⟩, ⟨rfl, rfl, (fun _ h => nomatch h)⟩⟩
  have k1 := protocol_up h.channel W.isTwo hn0 h0
  rw [h1] at k1
  have k2 := query_up h.channel hn0 k1.1
  rw [h2] at k2
  obtain ⟨_, _, _, _, _, k3, _⟩ := C68_descriptions W.replaceBad h.replaces n v t e h3
  exact ⟨k2.1, fun s hs => k3 s (.inl hs)⟩

/-- Two new players. -/
structure NewPlayers (W : TwoWorld σ) (o : TwoOpts) (code : Colour → Str) (gc0 : GC σ) (d : Colour → EngineDesc) : Prop where
  made : ∃ sb sw b w bs ws, o.black = some sb ∧ o.white = some sw ∧ W.shlex sb = some (b :: bs) ∧ W.shlex sw = some (w :: ws) ∧ Codes b w code ∧
    NewPlayer W (b :: bs) ("player ".toList ++ code .b) (gc0.ctl .b) (d .b) ∧ NewPlayer W (w :: ws) ("player ".toList ++ code .w) (gc0.ctl .w) (d .w)
  code : gc0.code = code

theorem newPlayers_tidy (h : GoodTwo W o isFloat) {code : Colour → Str} {gc0 : GC σ} (hp : NewPlayers W o code gc0 d) :
    (∀ c, Tidy (code c)) ∧ GCT Tidy (twoFixed code) gc0 ∧ Usable gc0 ∧ ∀ c s, (d c).short = some s → utf8Valid s = true := by
  obtain ⟨sb, sw, b, w, bs, ws, h1, h2, h3, h4, h5, h6, h7⟩ := hp.made
  have ht := codes_tidy h5 (h.commands sb b bs (.inl h1) h3) (h.commands sw w ws (.inr h2) h4)
  have hn : ∀ c, Tidy ("player ".toList ++ code c) := fun c => (tidy_lit (by decide +kernel)).append (ht c)
  obtain ⟨ub, eb⟩ := newPlayer_up h (hn .b) h6
  obtain ⟨uw, ew⟩ := newPlayer_up h (hn .w) h7
  refine ⟨ht, ⟨?_, hp.code⟩, ?_, ?_⟩
  · intro c
    cases c
    · exact ub.texts
    · exact uw.texts
  · refine Sound.usable (fun c => ?_)
    cases c
    · exact ⟨ub.ok.opened, ub.ok.live rfl trivial, ub.ok.aliases⟩
    · exact ⟨uw.ok.opened, uw.ok.live rfl trivial, uw.ok.aliases⟩
  · intro c
    cases c
    · exact eb
    · exact ew

/-- One game. -/
theorem runWith_tidy (h : GoodTwo W o isFloat) {code : Colour → Str} (hcode : ∀ c, Tidy (code c)) (hd : ∀ c s, (d c).short = some s → utf8Valid s = true) {gc : GC σ}
    (hgc : Usable gc) (hgt : GCT Tidy (twoFixed code) gc) {g : GtpGame σ (List Str)} (hr : RunWith W o gc g) :
    TwoTidy W d isFloat g ∧ Usable g.runner.env.gc ∧ GCT Tidy (twoFixed code) g.runner.env.gc := by
  obtain ⟨cfg, u, g1, fuel, game, hs, hp, hrun⟩ := hr
  have hk : isWellFormedWord cfg.komiText = true := by rw [hs.komi.2]; exact h.komiWord
  have hkt : Tidy cfg.komiText := by rw [hs.komi.2]; exact h.numbers _
  have hn : 2 ≤ cfg.boardSize ∧ cfg.boardSize ≤ 25 := by rw [hs.boardSize]; exact h.size
  have hf : FixedT Tidy (twoFixed code) := ⟨fun _ _ h => (nomatch h), fun c => (tidy_lit (by decide +kernel)).append (hcode c), hcode⟩
  have hpl := plain_run (by rw [hs.texts.2.2]; exact h.replaces) hk hn hgc hp hrun
  obtain ⟨henv, rr, r, a1, a2, a3, a4, a5, a6⟩ := run_tidy (fun _ => h.channel) hf h.numbers hkt hk hn hgc hgt hp hrun
  obtain ⟨_, _, _, _, h4, _⟩ := C58_run (fun _ => W.channel) cfg hk hn W.strFloat (.prepare _ _ _ _ _ hgc hp) fuel _ g game hrun
  have hcg : g.runner.env.gc.code = code := henv.gc.code
  refine ⟨⟨h.names, h.utf8, h.floats, h.version, h.date, hd, fun c => by rw [hcg]; exact (hcode c).valid, ?_, ?_⟩, (h4 rfl).2.2.1, henv.gc⟩
  · refine ⟨by rw [hpl.size]; exact hn, by rw [hpl.komi, hs.komi.1]; exact h.komi, fun x hx p hxp => by rw [hpl.size]; exact hpl.moves x hx p hxp, hpl.comments, hpl.final, ?_, ?_⟩
    · intro res hres
      rw [a1] at hres
      cases hres
      exact a2.valid
    · rw [hpl.stones]
      exact fun _ h => nomatch h
  · refine ⟨?_, tidy_scores henv⟩
    intro r' hr'
    rw [a3] at hr'
    cases hr'
    exact ⟨a4, by rw [a5]; exact hcode _, by rw [a6]; exact hcode _⟩

/-- All the games. -/
theorem inTurn_tidy (h : GoodTwo W o isFloat) {code : Colour → Str} {gc0 : GC σ} (hp : NewPlayers W o code gc0 d) {gs : List TwoGameRec} {gc : GC σ} (ht : InTurn W o d gc0 gs gc) :
    Usable gc ∧ GCT Tidy (twoFixed code) gc ∧
    (o.sgfbase ≠ none → ∀ rec ∈ gs, ∃ g : GtpGame σ (List Str), g.result = some rec.result ∧ movesOf g.runner = rec.moves ∧ TwoFile W o d g rec.text) := by
  obtain ⟨p1, p2, p3, p4⟩ := newPlayers_tidy h hp
  induction ht with
  | nil => exact ⟨p3, p2, fun _ _ h => nomatch h⟩
  | snoc gs gc g rec _ hr h1 h2 h3 ih =>
    obtain ⟨i1, i2, i3⟩ := ih
    obtain ⟨k1, k2, k3⟩ := runWith_tidy h p1 p4 i1 i2 hr
    refine ⟨k2, k3, fun hb rec' hrec => ?_⟩
    rcases List.mem_append.1 hrec with hrec | hrec
    · exact i3 hb rec' hrec
    · rw [List.mem_singleton.1 hrec]
      exact ⟨g, h1, h2, h3 hb isFloat k1⟩

theorem not_unwritable (h : GoodTwo W o isFloat) {code : Colour → Str} {gc0 : GC σ} (hp : NewPlayers W o code gc0 d) (gs : List TwoGameRec) : ¬ Unwritable W o d gc0 gs := by
  rintro ⟨before, last, gc, g, _, h1, h2, _, h3⟩
  obtain ⟨p1, _, _, p4⟩ := newPlayers_tidy h hp
  obtain ⟨k1, k2, _⟩ := inTurn_tidy h hp h1
  exact h3 isFloat (runWith_tidy h p1 p4 k1 k2 h2).1

/-- The number of a file in a list of files. -/
theorem wrote_twoFiles {base : Option Str} {texts : List Str} {path text : Str} (h : JobEvent.wrote path text ∈ twoFiles base texts) :
    ∃ b i, base = some b ∧ texts[i]? = some text ∧ path = b ++ strInt3 i ++ ".sgf".toList := by
  unfold twoFiles at h
  cases base with
  | none => cases h
  | some b =>
    obtain ⟨⟨t, i⟩, hx, h⟩ := List.mem_flatMap.1 h
    have hi := List.mem_zipIdx hx
    simp only [List.mem_cons, JobEvent.wrote.injEq, List.not_mem_nil, or_false, reduceCtorEq, false_or] at h
    obtain ⟨rfl, rfl⟩ := h
    exact ⟨b, i, rfl, by rw [List.mem_zipIdx_iff_getElem?] at hx; exact hx, rfl⟩

/-- C102: each file that twogtp writes is numbered, from 000, and is an SGF file of a game played between its two players, with the record of that game; and nothing goes wrong in making
the records: the only tracebacks are for commands which can't be split into words, engines that say they use a GTP version other than 2 (or whose version ends with whitespace), and strange scores. -/
theorem C102_files (h : GoodTwo W o isFloat) (fuel : Nat) (out : TwoOut σ) (hm : twoMain W o fuel = some out) :
    (∀ path text, JobEvent.wrote path text ∈ out.trace → ∃ base i code gc0 d gs gc, o.sgfbase = some base ∧ path = base ++ strInt3 i ++ ".sgf".toList ∧
      NewPlayers W o code gc0 d ∧ InTurn W o d gc0 gs gc ∧ ∃ rec, gs[i]? = some rec ∧ TwoPlayed W.float W.strFloat o.size code rec.moves rec.result ∧
        ∃ g : GtpGame σ (List Str), g.result = some rec.result ∧ movesOf g.runner = rec.moves ∧ TwoFile W o d g text) ∧
    (out.ending = .crashed → (∃ s, (o.black = some s ∨ o.white = some s) ∧ (W.shlex s = none ∨ W.shlex s = some [])) ∨ Objectionable W ∨ OddScore W out) := by
  have none2 : ∀ {path text : Str} {b w : List Str} {tr : List JobEvent}, SomeStarted W b w tr → JobEvent.wrote path text ∉ tr := by
    rintro path text b w tr (rfl | rfl) hx <;> simp [startedBy] at hx
  cases C101_series W h.replaces o h.size h.komiWord fuel out hm with
  | usage msg _ h1 _ h2 => exact ⟨fun _ _ hx => (by rw [h2] at hx; cases hx), fun he => (by rw [h1] at he; cases he)⟩
  | badCommand h1 _ _ h2 => exact ⟨fun _ _ hx => (by rw [h2] at hx; cases hx), fun _ => .inl h1⟩
  | notStarted sb sw b w bs ws code msg _ _ _ _ _ _ h1 _ _ h2 =>
    refine ⟨fun _ _ hx => ?_, fun he => (by rw [h2] at he; cases he)⟩
    rcases h1 with (⟨h1, _⟩ | ⟨h1, _⟩) | h1
    · rw [h1] at hx; cases hx
    · exact absurd hx (none2 (w := w :: ws) (.inl h1))
    · exact absurd hx (none2 h1)
  | refused sb sw b w bs ws _ _ _ _ _ h1 h2 _ => exact ⟨fun _ _ hx => absurd hx (none2 h1), fun _ => .inr (.inl h2)⟩
  | played sb sw b w bs ws code gc0 gc d gs extra ms h1 h2 h3 h4 h5 h6 h7 h8 h9 h10 _ _ h11 =>
    have hp : NewPlayers W o code gc0 d := ⟨⟨sb, sw, b, w, bs, ws, h1, h2, h3, h4, h5, h6, h7⟩, h8⟩
    obtain ⟨_, _, hfiles⟩ := inTurn_tidy h hp h9
    have key : ∀ {l : List TwoGameRec} {path text : Str}, l <+: gs → JobEvent.wrote path text ∈ [startedBy W .b (b :: bs), startedBy W .w (w :: ws)] ++ twoFiles o.sgfbase (l.map TwoGameRec.text) →
        ∃ base i code gc0 d gs gc, o.sgfbase = some base ∧ path = base ++ strInt3 i ++ ".sgf".toList ∧
      NewPlayers W o code gc0 d ∧ InTurn W o d gc0 gs gc ∧ ∃ rec, gs[i]? = some rec ∧ TwoPlayed W.float W.strFloat o.size code rec.moves rec.result ∧
        ∃ g : GtpGame σ (List Str), g.result = some rec.result ∧ movesOf g.runner = rec.moves ∧ TwoFile W o d g text := by
      intro l path text hl hx
      rcases List.mem_append.1 hx with hx | hx
      · simp [startedBy] at hx
      · obtain ⟨base, i, k1, k2, k3⟩ := wrote_twoFiles hx
        rw [List.getElem?_map] at k2
        obtain ⟨rec, k4, k5⟩ := Option.map_eq_some_iff.1 k2
        have k6 : gs[i]? = some rec := by
          obtain ⟨t, rfl⟩ := hl
          rw [List.getElem?_append_left (List.getElem?_eq_some_iff.1 k4).1, k4]
        have hmem := List.mem_of_getElem? k6
        obtain ⟨g, q1, q2, q3⟩ := hfiles (by rw [k1]; exact fun h => nomatch h) rec hmem
        exact ⟨base, i, code, gc0, d, gs, gc, k1, k3, hp, h9, rec, k6, h10.played rec hmem, g, q1, q2, k5 ▸ q3⟩
    cases h11 with
    | complete _ _ _ e1 e2 =>
      refine ⟨fun path text hx => ?_, fun he => ?_⟩
      · rw [e1] at hx; exact key (List.prefix_refl _) hx
      · rw [e2] at he; split at he <;> cases he
    | aborted msg _ _ e1 e2 =>
      refine ⟨fun path text hx => ?_, fun he => by rw [e2] at he; cases he⟩
      rw [e1] at hx; exact key (List.prefix_refl _) hx
    | noFile base path _ _ _ _ _ _ e1 e2 =>
      refine ⟨fun path text hx => ?_, fun he => by rw [e2] at he; cases he⟩
      rw [e1] at hx; exact key (List.dropLast_prefix _) hx
    | crashed _ _ e1 => 
      rcases e1 with ⟨_, e1⟩ | e1
      · exact absurd e1 (not_unwritable h hp gs)
      · refine ⟨fun path text hx => ?_, fun _ => .inr (.inr e1.1)⟩
        rw [e1.2] at hx; exact key (List.prefix_refl _) hx

/-! ### A concrete run -/

/-- A world with these engines, whose responses are neat. -/
def twoNeat (b w : List (Str × Str)) : TwoWorld Table := { neatWorld b w with shlex := fun s => if s = [' '] then some [] else some [s], ioText := fun _ => "no".toList }

/-- Any engines, with neat responses, meet the assumptions. -/
theorem neat_two (b w : List (Str × Str)) : GoodTwo (twoNeat b w) twoExampleOpts exampleIsFloat where
  channel := neat_channel tableChannel
  replaces := C68_witness.1
  size := show 2 ≤ 9 ∧ 9 ≤ 25 by decide
  komi := show exampleIsFloat (13/2) from Or.inr (Or.inl (by decide +kernel))
  komiWord := show isWellFormedWord "6.5".toList = true by decide +kernel
  numbers := fun _ => show Tidy "6.5".toList from tidy_lit (by decide +kernel)
  commands := by
    intro s x xs h hs
    change (if s = [' '] then some [] else some [s]) = _ at hs
    have hs' : some [s] = some (x :: xs) := by
      rw [if_neg] at hs
      · exact hs
      · intro he
        rw [he] at h
        exact absurd h (by decide +kernel)
    simp only [Option.some.injEq, List.cons.injEq] at hs'
    rw [← hs'.1]
    rcases h with h | h
    · rw [← Option.some.inj h]; exact tidy_lit (by decide +kernel)
    · rw [← Option.some.inj h]; exact tidy_lit (by decide +kernel)
  names := exampleNames
  utf8 := ⟨show exampleEncodings.normalise "UTF-8".toList = some "UTF-8".toList by decide +kernel, rfl⟩
  floats := exampleFloats_ok
  version := show utf8Valid "0.8".toList = true by decide +kernel
  date := show utf8Valid "2012-01-01".toList = true by decide +kernel

/-- The files written by a run. -/
def TwoOut.files (out : TwoOut Table) : List (Str × Str) := written out.trace

/-- C102: the name of a file: the number of the game, padded with zeros to three digits. -/
theorem C102_names (base : Str) (n : Nat) : ∃ zeros : Str, twoPath base n = base ++ zeros ++ strInt n ++ ".sgf".toList ∧ (∀ c ∈ zeros, c = '0') ∧
    ((strInt n).length ≤ 3 → (zeros ++ strInt n).length = 3) ∧ (3 ≤ (strInt n).length → zeros = []) := by
  refine ⟨List.replicate (3 - (strInt n).length) '0', ?_, ?_, ?_, ?_⟩
  · unfold twoPath strInt3; simp only [List.append_assoc]
  · intro c hc; exact List.eq_of_mem_replicate hc
  · intro h; rw [List.length_append, List.length_replicate]; omega
  · intro h; rw [Nat.sub_eq_zero_of_le h]; rfl

/-- C102: a run which meets the assumptions (as any engines with such responses do), and the files it writes: a game which White resigns, and, with other engines, a game which ends with two passes. -/
theorem C102_witness :
    (∀ b w, GoodTwo (twoNeat b w) twoExampleOpts exampleIsFloat) ∧
    (twoMain (twoNeat (simpleEngine "B2") (simpleEngine "resign")) twoExampleOpts 10).map TwoOut.files =
      some [("game000.sgf".toList, "(;FF[4]AP[Gomill twogtp:0.8]CA[UTF-8]DT[2012-01-01]GM[1]KM[6.5]PB[GNU Go:3.8]\nPW[GNU Go:3.8]RE[B+R]SZ[9];B[bh]\nC[ok\n\\]\n\nfinal message from w: <<<\nok\n\\]\n>>>\n\nb beat w B+R])\n".toList),
        ("game001.sgf".toList, "(;FF[4]AP[Gomill twogtp:0.8]CA[UTF-8]DT[2012-01-01]GM[1]KM[6.5]PB[GNU Go:3.8]\nPW[GNU Go:3.8]RE[B+R]SZ[9];B[bh]\nC[ok\n\\]\n\nfinal message from w: <<<\nok\n\\]\n>>>\n\nb beat w B+R])\n".toList)] ∧
    (twoMain (twoNeat (("final_score".toList, "B+2".toList) :: simpleEngine "pass") (simpleEngine "pass")) { twoExampleOpts with games := 1 } 10).map TwoOut.files =
      some [("game000.sgf".toList, "(;FF[4]AP[Gomill twogtp:0.8]CA[UTF-8]DT[2012-01-01]GM[1]KM[6.5]PB[GNU Go:3.8]\nPW[GNU Go:3.8]RE[B+2]SZ[9];B[tt]C[ok\n\\]];C[ok\n\\]\n\nb beat w B+2]W[tt])\n".toList)] := by
  refine ⟨neat_two, ?_, ?_⟩
  · decide +kernel
  · decide +kernel

end Gomill.Gtp
