import Verif.Model.GtpGame
import Verif.Lemmas.GameRule
import Verif.Props.GtpController
import Verif.Props.Vertex
/-
Lemmas for C58: what the methods of Game_controller and _Gtp_backend can do to the controllers.
-/
namespace Gomill.Gtp
open Py Go

variable {σ τ : Type}
variable {lv : Prop}

/-! ### Words -/

theorem isWordChar_digit {c : Char} (h : c.isDigit = true) : isWordChar c = true := by
  simp only [Char.isDigit, Bool.and_eq_true, decide_eq_true_eq] at h
  have h1 : 48 ≤ c.toNat := h.1
  have h2 : c.toNat ≤ 57 := h.2
  simp only [isWordChar, Bool.or_eq_true, Bool.and_eq_true, decide_eq_true_eq]
  omega

theorem word_strInt (i : Int) : isWellFormedWord (strInt i) = true := by
  unfold isWellFormedWord
  simp only [Bool.and_eq_true, decide_eq_true_eq, List.all_eq_true]
  refine ⟨strInt_ne_nil i, ?_⟩
  intro c hc
  unfold strInt at hc
  split at hc
  · rcases List.mem_cons.1 hc with rfl | hc
    · decide
    · exact isWordChar_digit (toDigits_isDigit hc)
  · exact isWordChar_digit (toDigits_isDigit hc)

theorem getItem_mem {α} {l : List α} {i : Int} {x : α} (h : getItem l i = .ok x) : x ∈ l := by
  unfold getItem at h
  cases hn : normIndex l.length i with
  | none => rw [hn] at h; cases h
  | some k =>
    rw [hn] at h
    simp only at h
    cases hk : l[k]? with
    | none => rw [hk] at h; cases h
    | some y =>
      rw [hk] at h
      cases h
      exact List.mem_of_getElem? hk

theorem word_formatVertex {m : Option Pt} {v : Str} (h : formatVertex m = .ok v) : isWellFormedWord v = true := by
  unfold formatVertex at h
  split at h
  · cases h
    decide +kernel
  · split at h
    · cases h
    · rename_i row col _
      cases hg : getItem columnLetters col with
      | error e => rw [hg] at h; cases h
      | ok c =>
        rw [hg] at h
        cases h
        have hc : isWordChar c = true := by
          have hall : ∀ c ∈ columnLetters, isWordChar c = true := by decide +kernel
          exact hall c (getItem_mem hg)
        have := word_strInt (row + 1)
        unfold isWellFormedWord at this ⊢
        simp only [Bool.and_eq_true, decide_eq_true_eq, List.all_eq_true] at this ⊢
        refine ⟨List.cons_ne_nil _ _, ?_⟩
        intro x hx
        rcases List.mem_cons.1 hx with rfl | hx
        · exact hc
        · exact this.2 x hx

theorem word_colour (c : Colour) : isWellFormedWord (colourWord c) = true := by
  cases c <;> decide +kernel

/-! ### A controller -/

/-- A controller which is open, whose aliases are well-formed words, and for which any channel error has been put aside; in
normal mode there hasn't been one, if `lv` says so. -/
structure CtlOK (lv : Prop) (o : Bool) (c : Ctl σ) : Prop where
  opened : c.closed = false
  aliases : ∀ kv ∈ c.aliases, isWellFormedWord kv.2 = true
  live : o = false → lv → c.bad = false
  reported : c.bad = true → c.errors ≠ []

theorem lookup_mem {l : List (Str × Str)} {k v : Str} (h : l.lookup k = some v) : (k, v) ∈ l := by
  induction l with
  | nil => cases h
  | cons x l ih =>
    obtain ⟨a, b⟩ := x
    unfold List.lookup at h
    split at h
    · rename_i heq
      cases h
      rw [beq_iff_eq] at heq
      rw [heq]
      exact List.mem_cons_self
    · exact List.mem_cons_of_mem _ (ih h)

theorem word_translate {c : Ctl σ} (h : ∀ kv ∈ c.aliases, isWellFormedWord kv.2 = true) {command : Str} (hc : isWellFormedWord command = true) :
    isWellFormedWord (c.translate command) = true := by
  unfold Ctl.translate
  cases hl : c.aliases.lookup command with
  | none => exact hc
  | some v => exact h _ (lookup_mem hl)

/-- After a method of a controller.  `b` says whether BadGtpResponse is possible. -/
def CPost (lv : Prop) (b : Prop) (o : Bool) {α : Type} : Except CExc α × Ctl σ → Prop
  | (.ok _, c) => CtlOK lv o c
  | (.error (.badResponse _ _), c) => b ∧ CtlOK lv o c
  | (.error (.channel _), c) => o = false ∧ c.closed = false ∧ c.bad = true ∧ ∀ kv ∈ c.aliases, isWellFormedWord kv.2 = true
  | (.error _, _) => False

/-- After `do_command` on an open controller. -/
def DPost (lv : Prop) (o : Bool) (c : Ctl σ) {α : Type} : Except CExc α × Ctl σ → Prop
  | (.ok _, c') => CtlOK lv o c' ∧ c'.bad = c.bad
  | (.error (.badResponse _ _), c') => CtlOK lv o c' ∧ c'.bad = c.bad
  | (.error (.channel _), c') => c'.closed = false ∧ c'.bad = true ∧ c'.aliases = c.aliases
  | (.error _, _) => False

theorem doCommand_post (C : Channel σ) {c : Ctl σ} {o : Bool} (h : CtlOK lv o c) {command : Str} {args : List Str}
    (hw : isWellFormedWord command = true ∧ ∀ a ∈ args, isWellFormedWord a = true) : DPost lv o c (c.doCommand C command args) := by
  have same : ∀ ch : σ, CtlOK lv o ({ c with chan := ch, isFirst := false } : Ctl σ) := fun ch => ⟨h.opened, h.aliases, h.live, h.reported⟩
  obtain ⟨d1, d2, d3, d4⟩ := C57_do_command C c command args h.opened ⟨word_translate h.aliases hw.1, hw.2⟩
  cases hs : C.send ((c.aliases.lookup command).getD command) args c.chan with
  | mk x ch =>
    cases x with
    | error e =>
      obtain ⟨msg, h1, _⟩ := d1 e ch hs
      rw [h1]
      exact ⟨h.opened, rfl, rfl⟩
    | ok u =>
      cases hr : C.recv ch with
      | mk y ch' =>
        cases y with
        | error e =>
          obtain ⟨msg, h1, _⟩ := d2 ch e ch' hs hr
          rw [h1]
          exact ⟨h.opened, rfl, rfl⟩
        | ok z =>
          obtain ⟨f, response⟩ := z
          cases f with
          | true =>
            obtain ⟨msg, h1, _⟩ := d3 ch response ch' hs hr
            rw [h1]
            exact ⟨same ch', rfl⟩
          | false =>
            rw [d4 ch response ch' hs hr]
            exact ⟨same ch', rfl⟩

theorem safeDoCommand_post (C : Channel σ) {c : Ctl σ} {o : Bool} (h : CtlOK lv o c) (ho : o = true) {command : Str} {args : List Str}
    (hw : isWellFormedWord command = true ∧ ∀ a ∈ args, isWellFormedWord a = true) : CPost lv True o (c.safeDoCommand C command args) := by
  cases hb : c.bad with
  | true => rw [(C57_safe_do_command C c command args).1 (.inl hb)]; exact h
  | false =>
    obtain ⟨s1, s2, s3⟩ := (C57_safe_do_command C c command args).2.1 hb h.opened
    have hd := doCommand_post C h hw
    cases hx : c.doCommand C command args with
    | mk x c' =>
      rw [hx] at hd
      cases x with
      | ok r => rw [s1 r c' hx]; exact hd.1
      | error e =>
        cases e with
        | badResponse m g => rw [s3 m g c' hx]; exact ⟨trivial, hd.1⟩
        | channel e =>
          rw [(s2 e c' hx).1]
          exact ⟨hd.1, fun kv hkv => h.aliases kv (by rw [← hd.2.2]; exact hkv), (fun hf => absurd (hf.symm.trans ho) (by decide)), fun _ => List.append_ne_nil_of_right_ne_nil _ (List.cons_ne_nil _ _)⟩
        | value => exact hd.elim
        | channelIsClosed => exact hd.elim

theorem perform_post (C : Channel σ) {c : Ctl σ} {o : Bool} (h : CtlOK lv o c) {command : Str} {args : List Str}
    (hw : isWellFormedWord command = true ∧ ∀ a ∈ args, isWellFormedWord a = true) : CPost lv True o (c.perform C o command args) := by
  unfold Ctl.perform
  cases o with
  | true => exact safeDoCommand_post C h rfl hw
  | false =>
    have hd := doCommand_post C h hw
    simp only [Bool.false_eq_true, if_false]
    cases hx : c.doCommand C command args with
    | mk x c' =>
      rw [hx] at hd
      cases x with
      | ok r => exact hd.1
      | error e =>
        cases e with
        | badResponse m g => exact ⟨trivial, hd.1⟩
        | channel e => exact ⟨rfl, hd.1, hd.2.1, by rw [hd.2.2]; exact h.aliases⟩
        | value => exact hd.elim
        | channelIsClosed => exact hd.elim

theorem known_word : isWellFormedWord "known_command".toList = true := by decide +kernel

theorem knownCommand_post (C : Channel σ) {c : Ctl σ} {o : Bool} (h : CtlOK lv o c) {command : Str} (hw : isWellFormedWord command = true) :
    CPost lv False o (c.knownCommand C o command) := by
  unfold Ctl.knownCommand
  split
  · exact h
  · have hp := perform_post C h (command := "known_command".toList) (args := [c.translate command])
      ⟨known_word, by simp only [List.mem_singleton, forall_eq]; exact word_translate h.aliases hw⟩
    cases hx : c.perform C o "known_command".toList [c.translate command] with
    | mk x c' =>
      rw [hx] at hp
      cases x with
      | ok r => exact ⟨hp.opened, hp.aliases, hp.live, hp.reported⟩
      | error e =>
        cases e with
        | badResponse m g => exact ⟨hp.2.opened, hp.2.aliases, hp.2.live, hp.2.reported⟩
        | channel e => exact hp
        | value => exact hp.elim
        | channelIsClosed => exact hp.elim

/-! ### The game controller -/

/-- Both controllers are as they should be, in the given mode, and the players' codes and the late errors are those of `gc0`. -/
structure GCOK (lv : Prop) (o : Bool) (gc0 gc : GC σ) : Prop where
  mode : gc.cautious = o
  ctl : ∀ c, CtlOK lv o (gc.ctl c)
  code : gc.code = gc0.code
  late : gc.lateErrors = gc0.lateErrors

/-- After a GtpChannelError in normal mode: one of the channels is bad. -/
structure GCBroken (gc0 gc : GC σ) : Prop where
  mode : gc.cautious = false
  opened : ∀ c, (gc.ctl c).closed = false
  bad : ∃ c, (gc.ctl c).bad = true
  aliases : ∀ c, ∀ kv ∈ (gc.ctl c).aliases, isWellFormedWord kv.2 = true
  code : gc.code = gc0.code
  late : gc.lateErrors = gc0.lateErrors

/-- After a method of the game controller. -/
def GPost (lv : Prop) (b : Prop) (o : Bool) (gc0 : GC σ) {α : Type} : Except CExc α × GC σ → Prop
  | (.ok _, gc) => GCOK lv o gc0 gc
  | (.error (.badResponse _ _), gc) => b ∧ GCOK lv o gc0 gc
  | (.error (.channel _), gc) => o = false ∧ GCBroken gc0 gc
  | (.error _, _) => False

theorem GCOK.set {o : Bool} {gc0 gc : GC σ} (h : GCOK lv o gc0 gc) {c : Colour} {x : Ctl σ} (hx : CtlOK lv o x) : GCOK lv o gc0 (gc.set c x) := by
  refine ⟨h.mode, ?_, h.code, h.late⟩
  intro d
  show CtlOK lv o (if d = c then x else gc.ctl d)
  split
  · exact hx
  · exact h.ctl d

theorem GCOK.setBroken {o : Bool} {gc0 gc : GC σ} (h : GCOK lv o gc0 gc) {c : Colour} {x : Ctl σ} (ho : o = false) (h1 : x.closed = false) (h2 : x.bad = true)
    (h3 : ∀ kv ∈ x.aliases, isWellFormedWord kv.2 = true) :
    GCBroken gc0 (gc.set c x) := by
  refine ⟨by rw [← ho]; exact h.mode, ?_, ⟨c, ?_⟩, ?_, h.code, h.late⟩
  · intro d
    show (if d = c then x else gc.ctl d).closed = false
    split
    · exact h1
    · exact (h.ctl d).opened
  · show (if c = c then x else gc.ctl c).bad = true
    rw [if_pos rfl]
    exact h2
  · intro d
    show ∀ kv ∈ (if d = c then x else gc.ctl d).aliases, isWellFormedWord kv.2 = true
    split
    · exact h3
    · exact (h.ctl d).aliases

theorem GPost.of {b : Prop} {o : Bool} {gc0 gc : GC σ} (h : GCOK lv o gc0 gc) {α : Type} {c : Colour} {x : Except CExc α × Ctl σ} (hx : CPost lv b o x) :
    GPost lv b o gc0 (x.1, gc.set c x.2) := by
  obtain ⟨x, y⟩ := x
  cases x with
  | ok a => exact h.set hx
  | error e =>
    cases e with
    | badResponse m g => exact ⟨hx.1, h.set hx.2⟩
    | channel e => exact ⟨hx.1, h.setBroken hx.1 hx.2.1 hx.2.2.1 hx.2.2.2⟩
    | value => exact hx.elim
    | channelIsClosed => exact hx.elim

theorem send_post (C : Colour → Channel σ) {o : Bool} {gc0 gc : GC σ} (h : GCOK lv o gc0 gc) (c : Colour) {command : Str} {args : List Str}
    (hw : isWellFormedWord command = true ∧ ∀ a ∈ args, isWellFormedWord a = true) : GPost lv True o gc0 (gc.send C c command args) := by
  have hp := perform_post (C c) (h.ctl c) hw
  unfold GC.send
  unfold Ctl.perform at hp
  rw [h.mode]
  cases o with
  | true =>
    simp only [if_true] at hp ⊢
    have hg := GPost.of h (c := c) hp
    cases hx : (gc.ctl c).safeDoCommand (C c) command args with
    | mk x c' =>
      rw [hx] at hg
      cases x with
      | error e => cases e <;> exact hg
      | ok r =>
        cases r with
        | none => exact ⟨trivial, hg⟩
        | some r => exact hg
  | false =>
    simp only [Bool.false_eq_true, if_false] at hp ⊢
    cases hx : (gc.ctl c).doCommand (C c) command args with
    | mk x c' =>
      rw [hx] at hp
      have hg := GPost.of h (c := c) hp
      cases x with
      | error e => cases e <;> exact hg
      | ok r => exact hg

theorem known_post (C : Colour → Channel σ) {o : Bool} {gc0 gc : GC σ} (h : GCOK lv o gc0 gc) (c : Colour) {command : Str}
    (hw : isWellFormedWord command = true) : GPost lv False o gc0 (gc.knownCommand C c command) := by
  unfold GC.knownCommand
  rw [h.mode]
  have hp := knownCommand_post (C c) (h.ctl c) hw
  exact GPost.of h (c := c) hp

theorem maybe_post (C : Colour → Channel σ) {o : Bool} {gc0 gc : GC σ} (h : GCOK lv o gc0 gc) (c : Colour) {command : Str} {args : List Str}
    (hw : isWellFormedWord command = true ∧ ∀ a ∈ args, isWellFormedWord a = true) : GPost lv False o gc0 (gc.maybeSend C c command args) := by
  unfold GC.maybeSend
  have hk := known_post C h c hw.1
  cases hx : gc.knownCommand C c command with
  | mk x gc1 =>
    rw [hx] at hk
    cases x with
    | error e => cases e <;> exact hk
    | ok r =>
      cases r with
      | false => exact hk
      | true =>
        have hk : GCOK lv o gc0 gc1 := hk
        have hp := perform_post (C c) (hk.ctl c) hw
        rw [← hk.mode] at hp
        simp only
        cases hy : (gc1.ctl c).perform (C c) gc1.cautious command args with
        | mk y c' =>
          rw [hy, hk.mode] at hp
          have hg := GPost.of hk (c := c) hp
          cases y with
          | ok r => exact hg
          | error e =>
            cases e with
            | badResponse m g => exact hg.2
            | channel e => exact hg
            | value => exact hg
            | channelIsClosed => exact hg

theorem cpu_word : isWellFormedWord "gomill-cpu_time".toList = true := by decide +kernel

theorem cpuTime_post (C : Colour → Channel σ) (float : Str → Option Rat) {o : Bool} {gc0 gc : GC σ} (h : GCOK lv o gc0 gc) (c : Colour) :
    GPost lv False o gc0 (gc.cpuTime C float c) := by
  unfold GC.cpuTime
  have hk := known_post C h c cpu_word
  cases hx : gc.knownCommand C c "gomill-cpu_time".toList with
  | mk x gc1 =>
    rw [hx] at hk
    cases x with
    | error e => cases e <;> exact hk
    | ok r =>
      cases r with
      | false => exact hk
      | true =>
        simp only
        have hm := maybe_post C (o := o) (gc0 := gc0) (gc := gc1) hk c (args := []) ⟨cpu_word, by simp⟩
        cases hy : gc1.maybeSend C c "gomill-cpu_time".toList [] with
        | mk y gc2 =>
          rw [hy] at hm
          cases y with
          | error e =>
            cases e with
            | badResponse m g => exact hm
            | channel e => exact hm
            | value => exact hm.elim
            | channelIsClosed => exact hm
          | ok r =>
            cases r with
            | none => exact hm
            | some s =>
              simp only
              cases float s <;> exact hm

/-- In cautious mode get_gtp_cpu_times doesn't raise any exception. -/
theorem cpuTimes_post (C : Colour → Channel σ) (float : Str → Option Rat) {gc0 gc : GC σ} (h : GCOK lv true gc0 gc) :
    ∃ times errors gc', gc.cpuTimes C float = (.ok (times, errors), gc') ∧ GCOK lv true gc0 gc' := by
  have safe : ∀ {gc : GC σ}, GCOK lv true gc0 gc → ∀ c, ∃ t gc', gc.cpuTime C float c = (.ok t, gc') ∧ GCOK lv true gc0 gc' := by
    intro gc h c
    have hp := cpuTime_post C float h c
    cases hx : gc.cpuTime C float c with
    | mk x gc1 =>
      rw [hx] at hp
      cases x with
      | ok t => exact ⟨t, gc1, rfl, hp⟩
      | error e =>
        cases e with
        | badResponse m g => exact hp.1.elim
        | channel e => exact absurd hp.1 (by simp)
        | value => exact hp.elim
        | channelIsClosed => exact hp.elim
  unfold GC.cpuTimes
  obtain ⟨t1, gc1, e1, h1⟩ := safe h .b
  obtain ⟨t2, gc2, e2, h2⟩ := safe h1 .w
  simp only [e1, e2]
  exact ⟨_, _, _, rfl, h2⟩

end Gomill.Gtp
