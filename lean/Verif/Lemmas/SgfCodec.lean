import Verif.Spec.SgfCodec
import Verif.Lemmas.SgfText
/-
Facts about encodings: line break and whitespace conversion commutes with transcoding; UTF-8 and ISO-8859-1 are
ASCII-compatible.
-/
namespace Gomill.Sgf

open Py

theorem dec_cons {C : Codec} (hC : AsciiCompatible C) {c : Char} (hc : c.toNat < 128) (y : Str) :
    C.dec (c :: y) = (C.dec y).map (c :: ·) := by
  have := hC.ascii [] c y hc
  rw [List.nil_append] at this
  rw [this, hC.nil]
  rfl

theorem normText_nil (simple : Bool) : normText simple [] = [] := rfl

theorem normText_cons {simple : Bool} {c : Char} (h1 : c ≠ '\n') (h2 : c ≠ '\r') (s : Str) :
    normText simple (c :: s) = spaceFor c :: normText simple s := by
  unfold normText
  rw [newlineSub_char h1 h2, List.map_cons, List.map_cons, wsMap_eq, if_neg]
  intro h
  rw [← wsMap_eq] at h
  exact h1 (wsMap_newline.1 h.2)

theorem normText_break {simple : Bool} {b s : Str} (hb : LineBreak b s) :
    normText simple (b ++ s) = (if simple then ' ' else '\n') :: normText simple s := by
  unfold normText
  rw [newlineSub_break hb, List.map_cons, List.map_cons]
  have e : wsMap '\n' = '\n' := by decide
  rw [e]
  cases simple <;> simp

theorem normText_high {simple : Bool} {x : Str} (hx : ∀ c ∈ x, 128 ≤ c.toNat) (y : Str) :
    normText simple (x ++ y) = x ++ normText simple y := by
  induction x with
  | nil => rfl
  | cons c x ih =>
    have hc := hx c (by simp)
    have hn : ∀ d : Char, d.toNat < 128 → c ≠ d := by rintro d hd rfl; omega
    rw [List.cons_append, normText_cons (hn _ (by decide)) (hn _ (by decide)), ih (fun d hd => hx d (List.mem_cons_of_mem _ hd))]
    rw [List.cons_append]
    congr 1
    unfold spaceFor
    rw [if_neg]
    simp only [List.mem_cons, List.not_mem_nil, or_false, not_or]
    exact ⟨hn _ (by decide), hn _ (by decide), hn _ (by decide)⟩

theorem spaceFor_ascii {c : Char} (h : c.toNat < 128) : (spaceFor c).toNat < 128 := by
  unfold spaceFor
  split
  · decide
  · exact h

/-- Split at the first ASCII character. -/
theorem split_ascii (s : Str) : (∀ c ∈ s, 128 ≤ c.toNat) ∨
    ∃ x c y, s = x ++ c :: y ∧ (∀ d ∈ x, 128 ≤ d.toNat) ∧ c.toNat < 128 := by
  induction s with
  | nil => exact Or.inl (by simp)
  | cons d s ih =>
    by_cases hd : d.toNat < 128
    · exact Or.inr ⟨[], d, s, rfl, by simp, hd⟩
    · rcases ih with h | ⟨x, c, y, rfl, hx, hc⟩
      · left
        intro c hc
        rcases List.mem_cons.1 hc with rfl | hc
        · omega
        · exact h c hc
      · right
        refine ⟨d :: x, c, y, rfl, ?_, hc⟩
        intro e he
        rcases List.mem_cons.1 he with rfl | he
        · omega
        · exact hx e he

/-- The first character of the decoded text is an ASCII character exactly if that of the encoded one is. -/
theorem dec_head {C : Codec} (hC : AsciiCompatible C) {e s : Str} (h : C.dec e = some s) (c : Char) (hc : c.toNat < 128) :
    s.head? = some c ↔ e.head? = some c := by
  cases e with
  | nil => rw [hC.nil] at h; cases h; simp
  | cons d e =>
    by_cases hd : d.toNat < 128
    · rw [dec_cons hC hd] at h
      obtain ⟨t, _, rfl⟩ := Option.map_eq_some_iff.1 h
      simp
    · have hne : (d :: e).head? ≠ some c := by
        simp only [List.head?_cons, ne_eq, Option.some.injEq]
        rintro rfl; exact hd hc
      have : s.head? ≠ some c := by
        rcases split_ascii (d :: e) with hh | ⟨x, c', y, hx, hh, hc'⟩
        · have := hC.high _ _ hh h
          intro hs
          cases s with
          | nil => simp at hs
          | cons a s =>
            simp only [List.head?_cons, Option.some.injEq] at hs
            subst hs
            have := this a (by simp)
            omega
        · rw [hx, hC.ascii _ _ _ hc'] at h
          cases ha : C.dec x with
          | none => rw [ha] at h; simp at h
          | some a =>
            rw [ha, Option.bind_some] at h
            obtain ⟨b, _, rfl⟩ := Option.map_eq_some_iff.1 h
            have hah := hC.high _ _ hh ha
            cases a with
            | nil =>
              have := hC.nonempty _ ha
              subst this
              simp only [List.nil_append, List.cons.injEq] at hx
              exact absurd (hx.1 ▸ hc') hd
            | cons a1 a =>
              simp only [List.cons_append, List.head?_cons, ne_eq, Option.some.injEq]
              rintro rfl
              have := hah a1 (by simp)
              omega
      exact ⟨fun h => absurd h this, fun h => absurd h hne⟩

/-- Converting line breaks and whitespace commutes with transcoding. -/
theorem dec_normText {C : Codec} (hC : AsciiCompatible C) (simple : Bool) : ∀ (n : Nat) (e s : Str), e.length ≤ n →
    C.dec e = some s → C.dec (normText simple e) = some (normText simple s) := by
  intro n
  induction n with
  | zero =>
    intro e s hn h
    have : e = [] := by simpa using hn
    subst this
    rw [hC.nil] at h
    cases h
    exact hC.nil
  | succ n ih =>
    intro e s hn h
    -- an ASCII character at the front
    have front : ∀ (c : Char) (y t : Str), c.toNat < 128 → y.length ≤ n → C.dec (c :: y) = some t →
        C.dec (normText simple (c :: y)) = some (normText simple t) := by
      intro c y t hc hy h
      rw [dec_cons hC hc] at h
      obtain ⟨b, hb, rfl⟩ := Option.map_eq_some_iff.1 h
      have hbr : ∀ br : Char, br.toNat < 128 → ∀ y b : Str, y.length ≤ n → C.dec y = some b →
          C.dec ((if simple then ' ' else '\n') :: normText simple y) = some ((if simple then ' ' else '\n') :: normText simple b) := by
        intro _ _ y b hy hb
        rw [dec_cons hC (by cases simple <;> decide), ih y b hy hb]
        rfl
      -- the breaks with two characters
      have two : ∀ c d : Char, (c = '\n' ∧ d = '\r' ∨ c = '\r' ∧ d = '\n') → ∀ y b : Str, y.length ≤ n → C.dec y = some b →
          C.dec (normText simple (c :: y)) = some (normText simple (c :: b)) := by
        intro c d hcd y b hy hb
        have hd : d.toNat < 128 := by rcases hcd with ⟨_, rfl⟩ | ⟨_, rfl⟩ <;> decide
        by_cases hh : y.head? = some d
        · cases y with
          | nil => simp at hh
          | cons d' y =>
            simp only [List.head?_cons, Option.some.injEq] at hh
            subst hh
            rw [dec_cons hC hd] at hb
            obtain ⟨b', hb', rfl⟩ := Option.map_eq_some_iff.1 hb
            have hl : ∀ s : Str, LineBreak [c, d'] s := by
              intro s
              rcases hcd with ⟨rfl, rfl⟩ | ⟨rfl, rfl⟩
              · exact .lfcr
              · exact .crlf
            have e1 := normText_break (simple := simple) (hl y)
            have e2 := normText_break (simple := simple) (hl b')
            simp only [List.cons_append, List.nil_append] at e1 e2
            rw [e1, e2]
            exact hbr d' hd y b' (by simp only [List.length_cons] at hy; omega) hb'
        · have hh' : b.head? ≠ some d := fun h => hh ((dec_head hC hb d hd).1 h)
          have hl : ∀ s : Str, s.head? ≠ some d → LineBreak [c] s := by
            intro s hs
            rcases hcd with ⟨rfl, rfl⟩ | ⟨rfl, rfl⟩
            · exact .lf hs
            · exact .cr hs
          have e1 := normText_break (simple := simple) (hl y hh)
          have e2 := normText_break (simple := simple) (hl b hh')
          simp only [List.cons_append, List.nil_append] at e1 e2
          rw [e1, e2]
          exact hbr d hd y b hy hb
      by_cases h1 : c = '\n'
      · exact two c '\r' (Or.inl ⟨h1, rfl⟩) y b hy hb
      · by_cases h2 : c = '\r'
        · exact two c '\n' (Or.inr ⟨h2, rfl⟩) y b hy hb
        · rw [normText_cons h1 h2, normText_cons h1 h2, dec_cons hC (spaceFor_ascii hc), ih y b hy hb]
          rfl
    rcases split_ascii e with hh | ⟨x, c, y, rfl, hx, hc⟩
    · have := normText_high (simple := simple) hh []
      rw [List.append_nil, normText_nil, List.append_nil] at this
      rw [this]
      have hs := normText_high (simple := simple) (hC.high _ _ hh h) []
      rw [List.append_nil, normText_nil, List.append_nil] at hs
      rw [hs, h]
    · have h0 := h
      rw [hC.ascii _ _ _ hc] at h
      cases ha : C.dec x with
      | none => rw [ha] at h; simp at h
      | some a =>
        rw [ha, Option.bind_some] at h
        obtain ⟨b, hb, rfl⟩ := Option.map_eq_some_iff.1 h
        have hfr := front c y (c :: b) hc (by simp only [List.length_append, List.length_cons] at hn; omega) (by
          rw [dec_cons hC hc, hb]; rfl)
        rw [normText_high hx, normText_high (hC.high _ _ hx ha)]
        -- the converted rest starts with an ASCII character
        have hst : ∀ z : Str, ∃ c' z', normText simple (c :: z) = c' :: z' ∧ c'.toNat < 128 := by
          intro z
          by_cases h1 : c = '\n' ∨ c = '\r'
          · have hl : ∃ b s, c :: z = b ++ s ∧ LineBreak b s := by
              rcases h1 with rfl | rfl
              · by_cases hz : z.head? = some '\r'
                · cases z with
                  | nil => simp at hz
                  | cons d z =>
                    simp only [List.head?_cons, Option.some.injEq] at hz
                    subst hz
                    exact ⟨_, z, rfl, .lfcr⟩
                · exact ⟨['\n'], z, rfl, .lf hz⟩
              · by_cases hz : z.head? = some '\n'
                · cases z with
                  | nil => simp at hz
                  | cons d z =>
                    simp only [List.head?_cons, Option.some.injEq] at hz
                    subst hz
                    exact ⟨_, z, rfl, .crlf⟩
                · exact ⟨['\r'], z, rfl, .cr hz⟩
            obtain ⟨b, s, hbs, hl⟩ := hl
            rw [hbs, normText_break hl]
            exact ⟨_, _, rfl, by cases simple <;> decide⟩
          · simp only [not_or] at h1
            rw [normText_cons h1.1 h1.2]
            exact ⟨_, _, rfl, spaceFor_ascii hc⟩
        obtain ⟨c1, z1, e1, hc1⟩ := hst y
        obtain ⟨c2, z2, e2, hc2⟩ := hst b
        rw [e1, e2] at hfr
        rw [e1, e2, hC.ascii _ _ _ hc1, ha, Option.bind_some]
        rw [dec_cons hC hc1] at hfr
        obtain ⟨w, hw, hw'⟩ := Option.map_eq_some_iff.1 hfr
        rw [hw, Option.map_some, hw']

/-! ### UTF-8 -/

theorem isCont_high {c : Char} (h : isCont c = true) : 128 ≤ c.toNat := by
  unfold isCont at h
  simp only [Bool.and_eq_true, decide_eq_true_eq] at h
  exact h.1

theorem utf8Valid_ascii {c : Char} (hc : c.toNat < 128) (y : Str) : utf8Valid (c :: y) = utf8Valid y := by
  rw [utf8Valid.eq_def]; simp only; rw [if_pos hc]

theorem not_cont {c : Char} (hc : c.toNat < 128) : isCont c = false := by
  unfold isCont
  simp only [Bool.and_eq_false_iff, decide_eq_false_iff_not]
  omega

theorem utf8Valid_append {c : Char} (hc : c.toNat < 128) (y : Str) : ∀ (n : Nat) (x : Str), x.length ≤ n →
    utf8Valid (x ++ c :: y) = (utf8Valid x && utf8Valid y) := by
  intro n
  induction n with
  | zero =>
    intro x hx
    have : x = [] := by simpa using hx
    subst this
    rw [List.nil_append, utf8Valid_ascii hc]
    simp [utf8Valid]
  | succ n ih =>
    intro x hx
    cases x with
    | nil =>
      rw [List.nil_append, utf8Valid_ascii hc]
      simp [utf8Valid]
    | cons a x =>
      rw [List.cons_append]
      by_cases ha : a.toNat < 128
      · rw [utf8Valid_ascii ha, utf8Valid_ascii ha]
        exact ih x (by simp only [List.length_cons] at *; omega)
      · rw [utf8Valid.eq_def, utf8Valid.eq_def (a :: x)]
        simp only
        rw [if_neg ha, if_neg ha]
        split
        · match x, hx with
          | [], _ => simp [not_cont hc]
          | b :: x, hx =>
            have := ih x (by simp only [List.length_cons] at *; omega)
            simp only [List.cons_append, this, Bool.and_assoc]
        · split
          · match x, hx with
            | [], _ => cases y <;> simp [not_cont hc]
            | [b], _ => simp [not_cont hc]
            | b :: d :: x, hx =>
              have := ih x (by simp only [List.length_cons] at *; omega)
              simp only [List.cons_append, this, Bool.and_assoc]
          · split
            · match x, hx with
              | [], _ => cases y with
                | nil => rfl
                | cons e y => cases y <;> simp [not_cont hc]
              | [b], _ => cases y <;> simp [not_cont hc]
              | [b, d], _ => simp [not_cont hc]
              | b :: d :: e :: x, hx =>
                have := ih x (by simp only [List.length_cons] at *; omega)
                simp only [List.cons_append, this, Bool.and_assoc]
            · rfl

theorem utf8_ok : AsciiCompatible utf8Codec where
  nil := by simp [utf8Codec, utf8Valid]
  ascii := by
    intro x c y hc
    simp only [utf8Codec]
    rw [utf8Valid_append hc y x.length x (Nat.le_refl _)]
    cases utf8Valid x <;> cases utf8Valid y <;> rfl
  high := by
    intro x a hx h
    simp only [utf8Codec] at h
    split at h
    · cases h; exact hx
    · simp at h
  nonempty := by
    intro x h
    simp only [utf8Codec] at h
    split at h
    · cases h; rfl
    · simp at h
  inverse := by
    intro s e hs h
    simp only [utf8Codec] at h ⊢
    cases h
    rw [if_pos hs]

/-! ### ISO-8859-1 -/

theorem latin1Dec_append (x y : Str) : latin1Dec (x ++ y) = (latin1Dec x).bind (fun a => (latin1Dec y).map (fun b => a ++ b)) := by
  induction x with
  | nil => simp [latin1Dec]
  | cons c x ih =>
    rw [List.cons_append, latin1Dec, latin1Dec, ih]
    split
    · cases latin1Dec x <;> cases latin1Dec y <;> rfl
    · split
      · cases latin1Dec x <;> cases latin1Dec y <;> rfl
      · rfl

theorem toNat_ofNat {n : Nat} (h : n < 256) : (Char.ofNat n).toNat = n := by
  have : n.isValidChar := Or.inl (by omega)
  simp only [Char.ofNat, this, dif_pos]
  rfl

theorem latin1_inverse : ∀ (n : Nat) (s e : Str), s.length ≤ n → latin1Enc s = some e → latin1Dec e = some s := by
  intro n
  induction n with
  | zero =>
    intro s e hn h
    have : s = [] := by simpa using hn
    subst this
    simp only [latin1Enc, Option.some.injEq] at h
    subst h; rfl
  | succ n ih =>
    intro s e hn h
    match s, hn, h with
    | [], _, h => simp only [latin1Enc, Option.some.injEq] at h; subst h; rfl
    | [c], _, h =>
      simp only [latin1Enc] at h
      split at h
      · rename_i hc
        cases h
        simp [latin1Dec, hc]
      · simp at h
    | c :: d :: r, hn, h =>
      rw [latin1Enc] at h
      split at h
      · rename_i hc
        obtain ⟨t, ht, rfl⟩ := Option.map_eq_some_iff.1 h
        rw [latin1Dec, if_pos hc, ih _ _ (by simp only [List.length_cons] at *; omega) ht]
        rfl
      · split at h
        · rename_i hc hcd
          obtain ⟨t, ht, rfl⟩ := Option.map_eq_some_iff.1 h
          have hd : 128 ≤ d.toNat ∧ d.toNat < 192 := by
            have := hcd.2
            unfold isCont at this
            simpa using this
          have hv : (Char.ofNat ((c.toNat - 192) * 64 + (d.toNat - 128))).toNat = (c.toNat - 192) * 64 + (d.toNat - 128) :=
            toNat_ofNat (by rcases hcd.1 with h | h <;> omega)
          have hge : ¬ (c.toNat - 192) * 64 + (d.toNat - 128) < 128 := by rcases hcd.1 with h | h <;> omega
          have hlt : (c.toNat - 192) * 64 + (d.toNat - 128) < 256 := by rcases hcd.1 with h | h <;> omega
          rw [latin1Dec, hv, if_neg hge, if_pos hlt, ih _ _ (by simp only [List.length_cons] at *; omega) ht]
          have e1 : 192 + ((c.toNat - 192) * 64 + (d.toNat - 128)) / 64 = c.toNat := by rcases hcd.1 with h | h <;> omega
          have e2 : 128 + ((c.toNat - 192) * 64 + (d.toNat - 128)) % 64 = d.toNat := by omega
          rw [e1, e2, Char.ofNat_toNat, Char.ofNat_toNat]
          rfl
        · simp at h

theorem latin1_ok : AsciiCompatible latin1Codec where
  nil := rfl
  ascii := by
    intro x c y hc
    simp only [latin1Codec]
    rw [latin1Dec_append, latin1Dec, if_pos hc]
    cases latin1Dec x <;> cases latin1Dec y <;> rfl
  high := by
    simp only [latin1Codec]
    intro x
    induction x with
    | nil => intro a _ h; simp only [latin1Dec, Option.some.injEq] at h; subst h; simp
    | cons d x ih =>
      intro a hx h
      have hd := hx d (by simp)
      rw [latin1Dec, if_neg (by omega)] at h
      split at h
      · rename_i hlt
        obtain ⟨t, ht, rfl⟩ := Option.map_eq_some_iff.1 h
        intro c hc
        rcases List.mem_cons.1 hc with rfl | hc
        · rw [toNat_ofNat (by omega)]; omega
        · rcases List.mem_cons.1 hc with rfl | hc
          · rw [toNat_ofNat (by omega)]; omega
          · exact ih t (fun e he => hx e (List.mem_cons_of_mem _ he)) ht c hc
      · simp at h
  nonempty := by
    simp only [latin1Codec]
    intro x h
    cases x with
    | nil => rfl
    | cons c x =>
      rw [latin1Dec] at h
      split at h
      · obtain ⟨t, _, h⟩ := Option.map_eq_some_iff.1 h; simp at h
      · split at h
        · obtain ⟨t, _, h⟩ := Option.map_eq_some_iff.1 h; simp at h
        · simp at h
  inverse := by
    intro s e _ h
    exact latin1_inverse s.length s e (Nat.le_refl _) h

end Gomill.Sgf
