import Verif.Model.GameJob
import Verif.Lemmas.GameTexts
import Verif.Lemmas.GtpGame
/-
What never changes in the controllers during a game, and the texts in them.
-/
namespace Gomill.Gtp
open Py

variable {σ τ : Type}

/-- A class of texts: closed under concatenation, and containing all ASCII texts without CR. -/
structure TextClass (T : Str → Prop) : Prop where
  append : ∀ a b, T a → T b → T (a ++ b)
  ascii : ∀ s : Str, (∀ c ∈ s, c.toNat < 128 ∧ c ≠ '\r') → T s

/-- All responses and error messages from the channel are in the class. -/
structure TextChannel (T : Str → Prop) (C : Channel σ) : Prop where
  send : ∀ command args s e, (C.send command args s).1 = .error e → T e.msg
  recvError : ∀ s e, (C.recv s).1 = .error e → T e.msg
  recv : ∀ s f r, (C.recv s).1 = .ok (f, r) → T r
  close : ∀ s m, (C.close s).1 = some m → T m

variable {T : Str → Prop} {C : Channel σ} {a : List (Str × Str)} {name : Str}

theorem TextClass.lit (hT : TextClass T) {s : Str} (h : s.all (fun c => decide (c.toNat < 128) && decide (c ≠ '\r')) = true) : T s := by
  refine hT.ascii s (fun c hc => ?_)
  have := List.all_eq_true.1 h c hc
  simpa using this

theorem TextClass.join (hT : TextClass T) {sep : Str} (hs : T sep) : ∀ {l : List Str}, (∀ x ∈ l, T x) → T (Py.join sep l)
  | [], _ => hT.lit rfl
  | [a], h => h a (by simp)
  | a :: b :: l, h => by
    have := TextClass.join hT hs (l := b :: l) (fun x hx => h x (List.mem_cons_of_mem _ hx))
    exact hT.append _ _ (hT.append _ _ (h a (by simp)) hs) this

theorem TextClass.format (hT : TextClass T) (first : Bool) {command : Str} {args : List Str} (hc : T command) (ha : ∀ x ∈ args, T x) :
    T (formatCommand first command args) := by
  have hd : T (Py.join [' '] (command :: args)) := hT.join (hT.lit rfl) (by
    intro x hx
    rcases List.mem_cons.1 hx with rfl | hx
    · exact hc
    · exact ha x hx)
  unfold formatCommand
  simp only
  split
  · exact hT.append _ _ (hT.append _ _ (hT.lit (by decide +kernel)) hd) (hT.lit (by decide +kernel))
  · exact hT.append _ _ (hT.append _ _ (hT.lit (by decide +kernel)) hd) (hT.lit (by decide +kernel))

/-- A controller with these aliases and this name, with texts in the class. -/
structure CtlT (T : Str → Prop) (a : List (Str × Str)) (name : Str) (c : Ctl σ) : Prop where
  aliases : c.aliases = a
  name : c.name = name
  errors : ∀ e ∈ c.errors, T e

/-- The texts in an exception. -/
def ExcT (T : Str → Prop) : CExc → Prop
  | .badResponse m g => T m ∧ ∀ r, g = some r → T r
  | .channel e => T e.msg
  | _ => True

/-- After a method of a controller. -/
def TPost (T : Str → Prop) (a : List (Str × Str)) (name : Str) {α : Type} (V : α → Prop) : Except CExc α × Ctl σ → Prop
  | (.ok v, c) => CtlT T a name c ∧ V v
  | (.error e, c) => CtlT T a name c ∧ ExcT T e

theorem doCommand_T (hT : TextClass T) (hC : TextChannel T C) {c : Ctl σ} (h : CtlT T a name c) (hn : T name) (ha : ∀ kv ∈ a, T kv.2) {command : Str} {args : List Str}
    (hc : T command) (hargs : ∀ x ∈ args, T x) : TPost T a name T (c.doCommand C command args) := by
  have ht : T (c.translate command) := by
    unfold Ctl.translate
    cases hl : c.aliases.lookup command with
    | none => exact hc
    | some v => exact ha (command, v) (by rw [← h.aliases]; exact lookup_mem hl)
  have hf := hT.format c.isFirst ht hargs
  have hnm : T c.name := by rw [h.name]; exact hn
  have msg : ∀ sending e, T e.msg → T (channelMessage sending (formatCommand c.isFirst (c.translate command) args) c.name e) := by
    intro sending e he
    have hl : T (errorLabel e.kind) := by cases e.kind <;> exact hT.lit (by decide +kernel)
    unfold channelMessage
    split
    · exact hT.append _ _ (hT.append _ _ (hT.append _ _ (hT.append _ _ (hT.append _ _ (hT.append _ _ hl (hT.lit (by decide +kernel))) hf) (hT.lit (by decide +kernel))) hnm)
        (hT.lit (by decide +kernel))) he
    · exact hT.append _ _ (hT.append _ _ (hT.append _ _ (hT.append _ _ (hT.append _ _ (hT.append _ _ hl (hT.lit (by decide +kernel))) hf) (hT.lit (by decide +kernel))) hnm)
        (hT.lit (by decide +kernel))) he
  unfold Ctl.doCommand
  split
  · exact ⟨h, trivial⟩
  · simp only
    split
    · exact ⟨⟨h.aliases, h.name, h.errors⟩, trivial⟩
    · split
      · rename_i e ch hs
        exact ⟨⟨h.aliases, h.name, h.errors⟩, msg true e (hC.send _ _ _ _ (congrArg Prod.fst hs))⟩
      · split
        · rename_i e ch hs
          exact ⟨⟨h.aliases, h.name, h.errors⟩, msg false e (hC.recvError _ _ (congrArg Prod.fst hs))⟩
        · rename_i f r ch hs
          have hr := hC.recv _ _ _ (congrArg Prod.fst hs)
          split
          · refine ⟨⟨h.aliases, h.name, h.errors⟩, ?_, by rintro _ ⟨⟩; exact hr⟩
            unfold failureMessage
            exact hT.append _ _ (hT.append _ _ (hT.append _ _ (hT.append _ _ (hT.append _ _ (hT.lit (by decide +kernel)) hf) (hT.lit (by decide +kernel))) hnm)
              (hT.lit (by decide +kernel))) hr
          · exact ⟨⟨h.aliases, h.name, h.errors⟩, hr⟩

/-- An optional text. -/
def OptT (T : Str → Prop) (s : Option Str) : Prop := ∀ x, s = some x → T x

theorem safeDoCommand_T (hT : TextClass T) (hC : TextChannel T C) {c : Ctl σ} (h : CtlT T a name c) (hn : T name) (ha : ∀ kv ∈ a, T kv.2) {command : Str} {args : List Str}
    (hc : T command) (hargs : ∀ x ∈ args, T x) : TPost T a name (OptT T) (c.safeDoCommand C command args) := by
  unfold Ctl.safeDoCommand
  split
  · exact ⟨h, fun _ h => nomatch h⟩
  · have := doCommand_T hT hC h hn ha hc hargs
    split
    · rename_i r c' hx; rw [hx] at this; exact ⟨this.1, by rintro _ ⟨⟩; exact this.2⟩
    · rename_i e c' hx
      rw [hx] at this
      refine ⟨⟨this.1.aliases, this.1.name, ?_⟩, fun _ h => nomatch h⟩
      intro x hx
      rcases List.mem_append.1 hx with hx | hx
      · exact this.1.errors x hx
      · rw [List.mem_singleton] at hx
        subst hx
        exact this.2
    · rename_i e c' _ hx
      rw [hx] at this
      exact this

theorem perform_T (hT : TextClass T) (hC : TextChannel T C) (safe : Bool) {c : Ctl σ} (h : CtlT T a name c) (hn : T name) (ha : ∀ kv ∈ a, T kv.2) {command : Str} {args : List Str}
    (hc : T command) (hargs : ∀ x ∈ args, T x) : TPost T a name (OptT T) (c.perform C safe command args) := by
  unfold Ctl.perform
  split
  · exact safeDoCommand_T hT hC h hn ha hc hargs
  · have := doCommand_T hT hC h hn ha hc hargs
    split
    · rename_i r c' hx; rw [hx] at this; exact ⟨this.1, by rintro _ ⟨⟩; exact this.2⟩
    · rename_i e c' hx; rw [hx] at this; exact this

theorem knownCommand_T (hT : TextClass T) (hC : TextChannel T C) (safe : Bool) {c : Ctl σ} (h : CtlT T a name c) (hn : T name) (ha : ∀ kv ∈ a, T kv.2) {command : Str}
    (hc : T command) : TPost T a name (fun _ => True) (c.knownCommand C safe command) := by
  have ht : T (c.translate command) := by
    unfold Ctl.translate
    cases hl : c.aliases.lookup command with
    | none => exact hc
    | some v => exact ha (command, v) (by rw [← h.aliases]; exact lookup_mem hl)
  unfold Ctl.knownCommand
  split
  · exact ⟨h, trivial⟩
  · have := perform_T hT hC safe h hn ha (command := "known_command".toList) (args := [c.translate command]) (hT.lit (by decide +kernel)) (by simpa using ht)
    split
    · rename_i r c' hx; rw [hx] at this; exact ⟨⟨this.1.aliases, this.1.name, this.1.errors⟩, trivial⟩
    · rename_i c' hx; rw [hx] at this; exact ⟨⟨this.1.aliases, this.1.name, this.1.errors⟩, trivial⟩
    · rename_i e c' _ hx; rw [hx] at this; exact this

theorem safeClose_T (hT : TextClass T) (hC : TextChannel T C) {c : Ctl σ} (h : CtlT T a name c) (hn : T name) (ha : ∀ kv ∈ a, T kv.2) :
    TPost T a name (fun _ => True) (c.safeClose C) := by
  have add : ∀ {c : Ctl σ} {m : Str}, CtlT T a name c → T m → CtlT T a name { c with errors := c.errors ++ [m] } := by
    intro c m h hm
    refine ⟨h.aliases, h.name, ?_⟩
    intro x hx
    rcases List.mem_append.1 hx with hx | hx
    · exact h.errors x hx
    · rw [List.mem_singleton] at hx; subst hx; exact hm
  have hq : TPost T a name (fun _ => True) (c.safeQuit C) := by
    unfold Ctl.safeQuit
    split
    · exact ⟨h, trivial⟩
    · have := safeDoCommand_T hT hC h hn ha (command := "quit".toList) (args := []) (hT.lit (by decide +kernel)) (fun _ h => nomatch h)
      split
      · rename_i m g c' hx; rw [hx] at this; exact ⟨add this.1 this.2.1, trivial⟩
      · rename_i e c' _ hx; rw [hx] at this; exact this
      · rename_i v c' hx; rw [hx] at this; exact ⟨this.1, trivial⟩
  unfold Ctl.safeClose
  split
  · exact ⟨h, trivial⟩
  · split
    · rename_i e c' hx; rw [hx] at hq; exact hq
    · rename_i c' hx
      rw [hx] at hq
      split
      · rename_i m ch hx'
        have hm := hC.close _ _ (congrArg Prod.fst hx')
        have hcm : T (closeMessage c'.name m) := by
          unfold closeMessage
          rw [hq.1.name]
          exact hT.append _ _ (hT.append _ _ (hT.append _ _ (hT.lit (by decide +kernel)) hn) (hT.lit (by decide +kernel))) hm
        have := add hq.1 hcm
        exact ⟨⟨this.aliases, this.name, this.errors⟩, trivial⟩
      · exact ⟨⟨hq.1.aliases, hq.1.name, hq.1.errors⟩, trivial⟩

/-! ### The game controller -/

/-- What stays the same for each player. -/
structure Fixed where
  aliases : Colour → List (Str × Str)
  name : Colour → Str
  code : Colour → Str

/-- The texts of these are in the class. -/
structure FixedT (T : Str → Prop) (f : Fixed) : Prop where
  aliases : ∀ c, ∀ kv ∈ f.aliases c, T kv.2
  name : ∀ c, T (f.name c)
  code : ∀ c, T (f.code c)

structure GCT (T : Str → Prop) (f : Fixed) (gc : GC σ) : Prop where
  ctl : ∀ c, CtlT T (f.aliases c) (f.name c) (gc.ctl c)
  code : gc.code = f.code

/-- After a method of the game controller. -/
def GTPost (T : Str → Prop) (f : Fixed) {α : Type} (V : α → Prop) : Except CExc α × GC σ → Prop
  | (.ok v, gc) => GCT T f gc ∧ V v
  | (.error e, gc) => GCT T f gc ∧ ExcT T e

variable {f : Fixed} {CC : Colour → Channel σ}

theorem GCT.set {gc : GC σ} (h : GCT T f gc) {c : Colour} {x : Ctl σ} (hx : CtlT T (f.aliases c) (f.name c) x) : GCT T f (gc.set c x) := by
  refine ⟨?_, h.code⟩
  intro d
  show CtlT T _ _ (if d = c then x else gc.ctl d)
  split
  · rename_i hd; subst hd; exact hx
  · exact h.ctl d

theorem send_T (hT : TextClass T) (hC : ∀ c, TextChannel T (CC c)) (hf : FixedT T f) {gc : GC σ} (h : GCT T f gc) (c : Colour) {command : Str} {args : List Str}
    (hc : T command) (hargs : ∀ x ∈ args, T x) : GTPost T f T (gc.send CC c command args) := by
  unfold GC.send
  split
  · have := safeDoCommand_T hT (hC c) (h.ctl c) (hf.name c) (hf.aliases c) hc hargs
    split
    · rename_i e x hx; rw [hx] at this; exact ⟨h.set this.1, this.2⟩
    · rename_i x hx
      rw [hx] at this
      refine ⟨h.set this.1, ?_, fun _ h => nomatch h⟩
      rw [h.code]
      exact hT.append _ _ (hT.lit (by decide +kernel)) (hf.code c)
    · rename_i r x hx; rw [hx] at this; exact ⟨h.set this.1, this.2 _ rfl⟩
  · have := doCommand_T hT (hC c) (h.ctl c) (hf.name c) (hf.aliases c) hc hargs
    split
    · rename_i e x hx; rw [hx] at this; exact ⟨h.set this.1, this.2⟩
    · rename_i r x hx; rw [hx] at this; exact ⟨h.set this.1, this.2⟩

theorem gcKnown_T (hT : TextClass T) (hC : ∀ c, TextChannel T (CC c)) (hf : FixedT T f) {gc : GC σ} (h : GCT T f gc) (c : Colour) {command : Str}
    (hc : T command) : GTPost T f (fun _ => True) (gc.knownCommand CC c command) := by
  unfold GC.knownCommand
  have := knownCommand_T hT (hC c) gc.cautious (h.ctl c) (hf.name c) (hf.aliases c) hc
  cases hx : (gc.ctl c).knownCommand (CC c) gc.cautious command with
  | mk r x =>
    rw [hx] at this
    cases r with
    | error e => exact ⟨h.set this.1, this.2⟩
    | ok b => exact ⟨h.set this.1, trivial⟩

theorem maybeSend_T (hT : TextClass T) (hC : ∀ c, TextChannel T (CC c)) (hf : FixedT T f) {gc : GC σ} (h : GCT T f gc) (c : Colour) {command : Str} {args : List Str}
    (hc : T command) (hargs : ∀ x ∈ args, T x) : GTPost T f (OptT T) (gc.maybeSend CC c command args) := by
  unfold GC.maybeSend
  have h1 := gcKnown_T hT hC hf h c hc
  split
  · rename_i e x hx; rw [hx] at h1; exact h1
  · rename_i x hx; rw [hx] at h1; exact ⟨h1.1, fun _ h => nomatch h⟩
  · rename_i gc' hx
    rw [hx] at h1
    have := perform_T hT (hC c) gc'.cautious (h1.1.ctl c) (hf.name c) (hf.aliases c) hc hargs
    split
    · rename_i r x hx; rw [hx] at this; exact ⟨h1.1.set this.1, this.2⟩
    · rename_i x hx; rw [hx] at this; exact ⟨h1.1.set this.1, fun _ h => nomatch h⟩
    · rename_i e x _ hx; rw [hx] at this; exact ⟨h1.1.set this.1, this.2⟩

theorem cpuTime_T (hT : TextClass T) (hC : ∀ c, TextChannel T (CC c)) (hf : FixedT T f) {gc : GC σ} (h : GCT T f gc) (c : Colour) (float : Str → Option Rat) :
    GCT T f (gc.cpuTime CC float c).2 := by
  have hl : T "gomill-cpu_time".toList := hT.lit (by decide +kernel)
  unfold GC.cpuTime
  have h1 := gcKnown_T hT hC hf h c hl
  split
  · rename_i e x hx; rw [hx] at h1; exact h1.1
  · rename_i x hx; rw [hx] at h1; exact h1.1
  · rename_i gc' hx
    rw [hx] at h1
    have h2 := maybeSend_T hT hC hf h1.1 c hl (args := []) (fun _ h => nomatch h)
    split
    · rename_i x hx; rw [hx] at h2; exact h2.1
    · rename_i e x _ hx; rw [hx] at h2; exact h2.1
    · rename_i x hx; rw [hx] at h2; exact h2.1
    · rename_i s x hx
      rw [hx] at h2
      split <;> exact h2.1

theorem cpuTimes_T (hT : TextClass T) (hC : ∀ c, TextChannel T (CC c)) (hf : FixedT T f) {gc : GC σ} (h : GCT T f gc) (float : Str → Option Rat) :
    GCT T f (gc.cpuTimes CC float).2 := by
  unfold GC.cpuTimes
  have h1 := cpuTime_T hT hC hf h .b float
  split
  · rename_i e x hx; rw [hx] at h1; exact h1
  · rename_i t e x hx
    rw [hx] at h1
    have h2 := cpuTime_T hT hC hf h1 .w float
    split
    · rename_i e' x' hx'; rw [hx'] at h2; exact h2
    · rename_i t' e' x' hx'; rw [hx'] at h2; exact h2

/-! ### The backend -/

/-- The state of the backend. -/
structure EnvT (T : Str → Prop) (f : Fixed) (env : GEnv σ τ) : Prop where
  gc : GCT T f env.gc
  scores : ∀ x ∈ env.scores, T x.2

theorem startColour_T (hT : TextClass T) (hC : ∀ c, TextChannel T (CC c)) (hf : FixedT T f) (cfg : GtpCfg τ) (hk : T cfg.komiText) (c : Colour) {gc : GC σ} (h : GCT T f gc) :
    GCT T f (startColour CC cfg c gc).2 := by
  unfold startColour
  have h1 := send_T hT hC hf h c (command := "boardsize".toList) (args := [strInt cfg.boardSize]) (hT.lit (by decide +kernel)) (by
    intro x hx; rw [List.mem_singleton] at hx; subst hx; exact strInt_T hT _)
  split
  · rename_i e x hx; rw [hx] at h1; exact h1.1
  · rename_i r x hx
    rw [hx] at h1
    have h2 := send_T hT hC hf h1.1 c (command := "clear_board".toList) (args := []) (hT.lit (by decide +kernel)) (fun _ h => nomatch h)
    split
    · rename_i e x hx; rw [hx] at h2; exact h2.1
    · rename_i r x hx
      rw [hx] at h2
      have h3 := send_T hT hC hf h2.1 c (command := "komi".toList) (args := [cfg.komiText]) (hT.lit (by decide +kernel)) (by simpa using hk)
      split
      · rename_i e x hx; rw [hx] at h3; exact h3.1
      · rename_i r x hx; rw [hx] at h3; exact h3.1
where
  strInt_T {T : Str → Prop} (hT : TextClass T) (i : Int) : T (strInt i) := by
    refine hT.ascii _ ?_
    intro c hc
    unfold strInt at hc
    have dig : ∀ {c : Char}, c.isDigit = true → c.toNat < 128 ∧ c ≠ '\r' := by
      intro c h
      simp only [Char.isDigit, Bool.and_eq_true, decide_eq_true_eq] at h
      have h1 : 48 ≤ c.toNat := h.1
      have h2 : c.toNat ≤ 57 := h.2
      exact ⟨by omega, by rintro rfl; revert h1; decide⟩
    split at hc
    · rcases List.mem_cons.1 hc with rfl | hc
      · decide
      · exact dig (toDigits_isDigit hc)
    · exact dig (toDigits_isDigit hc)

theorem askScorers_T (hT : TextClass T) (hC : ∀ c, TextChannel T (CC c)) (hf : FixedT T f) : ∀ (cs : List Colour) {gc : GC σ}, GCT T f gc →
    GTPost T f (fun l => ∀ x ∈ l, T x.2) (askScorers CC cs gc) := by
  intro cs
  induction cs with
  | nil => intro gc h; exact ⟨h, fun _ h => nomatch h⟩
  | cons c cs ih =>
    intro gc h
    unfold askScorers
    have h1 := maybeSend_T hT hC hf h c (command := "final_score".toList) (args := []) (hT.lit (by decide +kernel)) (fun _ h => nomatch h)
    split
    · rename_i e x hx; rw [hx] at h1; exact h1
    · rename_i r x hx
      rw [hx] at h1
      have h2 := ih h1.1
      split
      · rename_i e x hx; rw [hx] at h2; exact h2
      · rename_i l x hx
        rw [hx] at h2
        refine ⟨h2.1, ?_⟩
        cases r with
        | none => exact h2.2
        | some s =>
          intro y hy
          rcases List.mem_cons.1 hy with rfl | hy
          · exact h1.2 s rfl
          · exact h2.2 y hy

theorem formatVertex_T (hT : TextClass T) {m : Option Pt} {v : Str} (h : formatVertex m = .ok v) : T v := by
  unfold formatVertex at h
  split at h
  · cases h; exact hT.lit (by decide +kernel)
  · split at h
    · cases h
    · rename_i row col _
      cases hg : getItem columnLetters col with
      | error e => rw [hg] at h; cases h
      | ok c =>
        rw [hg] at h
        cases h
        have hc : T [c] := by
          have hall : ∀ c ∈ columnLetters, c.toNat < 128 ∧ c ≠ '\r' := by decide +kernel
          exact hT.ascii _ (by intro d hd; rw [List.mem_singleton] at hd; subst hd; exact hall _ (getItem_mem hg))
        exact hT.append [c] _ hc (startColour_T.strInt_T hT _)

theorem ownTexts (hT : TextClass T) : OwnTexts T where
  ko := fun _ _ h => hT.append _ _ (hT.lit (by decide +kernel)) (formatVertex_T hT h)
  occupied := fun _ _ h => hT.append _ _ (hT.lit (by decide +kernel)) (formatVertex_T hT h)
  limit := hT.lit (by decide +kernel)
  claim := hT.lit (by decide +kernel)
  disagreed := hT.lit (by decide +kernel)
  noScore := hT.lit (by decide +kernel)
  noMargin := hT.lit (by decide +kernel)

theorem genmove_T (hT : TextClass T) (hC : ∀ c, TextChannel T (CC c)) (hf : FixedT T f) (cfg : GtpCfg τ) (c : Colour) (mayClaim : Bool) {env : GEnv σ τ} (h : EnvT T f env) :
    EnvT T f (genmove CC cfg c mayClaim env).2 ∧ ∀ s, (genmove CC cfg c mayClaim env).1 = .ok (.forfeit s) → T s := by
  unfold genmove
  simp only
  have hcmd : T (if mayClaim then "gomill-genmove_ex".toList else "genmove".toList) := by
    split
    · exact hT.lit (by decide +kernel)
    · exact hT.lit (by decide +kernel)
  have hargs : ∀ x ∈ (if mayClaim then [colourWord c, "claim".toList] else [colourWord c]), T x := by
    have hcol : T (colourWord c) := by cases c <;> exact hT.lit (by decide +kernel)
    intro x hx
    split at hx
    · simp only [List.mem_cons, List.not_mem_nil, or_false] at hx
      rcases hx with rfl | rfl
      · exact hcol
      · exact hT.lit (by decide +kernel)
    · rw [List.mem_singleton] at hx; subst hx; exact hcol
  have h1 := send_T hT hC hf h.gc c hcmd hargs
  split
  · rename_i m g gc hx
    rw [hx] at h1
    exact ⟨⟨h1.1, h.scores⟩, by rintro s ⟨⟩; exact h1.2.1⟩
  · rename_i e gc _ hx
    rw [hx] at h1
    exact ⟨⟨h1.1, h.scores⟩, fun _ h => nomatch h⟩
  · rename_i raw gc hx
    rw [hx] at h1
    split
    · exact ⟨⟨h1.1, h.scores⟩, fun _ h => nomatch h⟩
    · split
      · exact ⟨⟨h1.1, h.scores⟩, fun _ h => nomatch h⟩
      · split
        · exact ⟨⟨h1.1, h.scores⟩, fun _ h => nomatch h⟩
        · exact ⟨⟨h1.1, h.scores⟩, by rintro s ⟨⟩; exact hT.append _ _ (hT.lit (by decide +kernel)) h1.2⟩

theorem gtpBackend_texts (hT : TextClass T) (hC : ∀ c, TextChannel T (CC c)) (hf : FixedT T f) (cfg : GtpCfg τ) (hk : T cfg.komiText) :
    Texts (gtpBackend CC cfg) (EnvT T f) T where
  start := by
    intro n k env h
    show EnvT T f (startNewGame CC cfg n k env).2
    unfold startNewGame
    split
    · exact h
    · refine ⟨?_, h.scores⟩
      show GCT T f (match startColour CC cfg .b (env.gc.setCautious false) with
        | (.error e, gc) => (.error e, gc)
        | (.ok (), gc) => startColour CC cfg .w gc : Except CExc Unit × GC σ).2
      have h1 := startColour_T hT hC hf cfg hk .b (gc := env.gc.setCautious false) ⟨h.gc.ctl, h.gc.code⟩
      split
      · rename_i e gc hx; rw [hx] at h1; exact h1
      · rename_i gc hx; rw [hx] at h1; exact startColour_T hT hC hf cfg hk .w h1
  endGame := fun env h => ⟨⟨h.gc.ctl, h.gc.code⟩, h.scores⟩
  getFree := by
    intro k env h
    show EnvT T f (getFreeHandicap CC cfg k env).2
    unfold getFreeHandicap
    split
    · exact h
    · have h1 := send_T hT hC hf h.gc .b (command := "place_free_handicap".toList) (args := [strInt k]) (hT.lit (by decide +kernel)) (by
        intro x hx; rw [List.mem_singleton] at hx; subst hx; exact startColour_T.strInt_T hT _)
      split
      · rename_i e gc hx; rw [hx] at h1; exact ⟨h1.1, h.scores⟩
      · rename_i v gc hx
        rw [hx] at h1
        split
        · exact ⟨h1.1, h.scores⟩
        · split
          · exact ⟨h1.1, h.scores⟩
          · split <;> exact ⟨h1.1, h.scores⟩
  notifyFree := by
    intro l env h
    show EnvT T f (notifyFreeHandicap CC l env).2
    unfold notifyFreeHandicap
    split
    · exact h
    · rename_i vs hvs
      have h1 := send_T hT hC hf h.gc .w (command := "set_free_handicap".toList) (args := vs) (hT.lit (by decide +kernel)) (by
        intro x hx
        obtain ⟨p, hp⟩ := mapM_mem hvs x hx
        exact formatVertex_T hT hp)
      split
      · rename_i e gc hx; rw [hx] at h1; exact ⟨h1.1, h.scores⟩
      · rename_i v gc hx; rw [hx] at h1; exact ⟨h1.1, h.scores⟩
  notifyFixed := by
    intro c k l env h
    show EnvT T f (notifyFixedHandicap CC cfg c k l env).2
    unfold notifyFixedHandicap
    split
    · exact h
    · have h1 := send_T hT hC hf h.gc c (command := "fixed_handicap".toList) (args := [strInt k]) (hT.lit (by decide +kernel)) (by
        intro x hx; rw [List.mem_singleton] at hx; subst hx; exact startColour_T.strInt_T hT _)
      split
      · rename_i e gc hx; rw [hx] at h1; exact ⟨h1.1, h.scores⟩
      · rename_i v gc hx
        rw [hx] at h1
        split
        · exact ⟨h1.1, h.scores⟩
        · split <;> exact ⟨h1.1, h.scores⟩
  getMove := by
    intro c env h
    show EnvT T f (getMove CC cfg c env).2 ∧ ∀ s, (getMove CC cfg c env).1 = .ok (.forfeit s) → T s
    unfold getMove
    split
    · have h1 := gcKnown_T hT hC hf h.gc c (command := "gomill-genmove_ex".toList) (hT.lit (by decide +kernel))
      split
      · rename_i e gc hx; rw [hx] at h1; exact ⟨⟨h1.1, h.scores⟩, fun _ h => nomatch h⟩
      · rename_i v gc hx; rw [hx] at h1; exact genmove_T hT hC hf cfg c v (env := { env with gc := gc }) ⟨h1.1, h.scores⟩
    · exact genmove_T hT hC hf cfg c false h
  notifyMove := by
    intro c m env h
    show EnvT T f (notifyMove CC c m env).2 ∧ ∀ st s, (notifyMove CC c m env).1 = .ok (st, some s) → T s
    unfold notifyMove
    split
    · exact ⟨h, fun _ _ h => nomatch h⟩
    · rename_i v hv
      have hvT := formatVertex_T hT hv
      have h1 := send_T hT hC hf h.gc c (command := "play".toList) (args := [colourWord c.opponent, v]) (hT.lit (by decide +kernel)) (by
        intro x hx
        simp only [List.mem_cons, List.not_mem_nil, or_false] at hx
        rcases hx with rfl | rfl
        · cases c <;> exact hT.lit (by decide +kernel)
        · exact hvT)
      split
      · rename_i msg g gc hx
        rw [hx] at h1
        split
        · refine ⟨⟨h1.1, h.scores⟩, ?_⟩
          rintro st s ⟨⟩
          rw [h.gc.code]
          exact hT.append _ _ (hT.append _ _ (hT.append _ _ (hf.code c) (hT.lit (by decide +kernel))) hvT) (hT.lit (by decide +kernel))
        · refine ⟨⟨h1.1, h.scores⟩, ?_⟩
          rintro st s ⟨⟩
          exact h1.2.1
      · rename_i e gc _ hx; rw [hx] at h1; exact ⟨⟨h1.1, h.scores⟩, fun _ _ h => nomatch h⟩
      · rename_i r gc hx; rw [hx] at h1; exact ⟨⟨h1.1, h.scores⟩, fun _ _ h => nomatch h⟩
  scoreGame := by
    intro b env h
    show EnvT T f (scoreGame CC cfg b env).2
    unfold scoreGame
    split
    · split
      · exact h
      · exact ⟨h.gc, fun _ h => nomatch h⟩
    · unfold scoreGameGtp
      have h1 := askScorers_T hT hC hf cfg.scorers h.gc
      split
      · rename_i e gc hx; rw [hx] at h1; exact ⟨h1.1, h.scores⟩
      · rename_i raw gc hx
        rw [hx] at h1
        simp only
        split
        · exact ⟨h1.1, h.scores⟩
        · exact ⟨h1.1, h1.2⟩
  comment := by
    intro c env h
    show EnvT T f (getLastMoveComment CC cfg c env).2
    unfold getLastMoveComment
    have h1 := maybeSend_T hT hC hf h.gc c (command := "gomill-explain_last_move".toList) (args := []) (hT.lit (by decide +kernel)) (fun _ h => nomatch h)
    split
    · rename_i e gc hx; rw [hx] at h1; exact ⟨h1.1, h.scores⟩
    · rename_i gc hx; rw [hx] at h1; exact ⟨h1.1, h.scores⟩
    · rename_i s gc hx; rw [hx] at h1; exact ⟨h1.1, h.scores⟩
  afterMove := by
    intro c m b env h
    show EnvT T f (afterMove cfg c m b env).2
    unfold afterMove
    split <;> exact ⟨h.gc, h.scores⟩
where
  mapM_mem {l : List Pt} {vs : List Str} (h : l.mapM (fun p => formatVertex (some p)) = .ok vs) : ∀ v ∈ vs, ∃ p, formatVertex (some p) = .ok v := by
    induction l generalizing vs with
    | nil => cases h; exact fun _ h => nomatch h
    | cons p l ih =>
      rw [List.mapM_cons] at h
      simp only [bind, Except.bind] at h
      cases hp : formatVertex (some p) with
      | error e => rw [hp] at h; cases h
      | ok x =>
        rw [hp] at h
        simp only at h
        cases hl : l.mapM (fun p => formatVertex (some p)) with
        | error e => rw [hl] at h; cases h
        | ok xs =>
          rw [hl] at h
          cases h
          intro v hv
          rcases List.mem_cons.1 hv with rfl | hv
          · exact ⟨p, hp⟩
          · exact ih hl v hv

end Gomill.Gtp
