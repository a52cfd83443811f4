import Verif.Lemmas.SgfTranscode
import Verif.Props.SgfText
/-
Converting text values between encodings; UTF-8 and ISO-8859-1 are suitable.
-/
namespace Gomill.Sgf

open Py

theorem utf8Valid_concat : ∀ (n : Nat) (x y : Str), x.length ≤ n → utf8Valid x = true → utf8Valid y = true → utf8Valid (x ++ y) = true := by
  intro n
  induction n with
  | zero =>
    intro x y hn _ hy
    have : x = [] := by simpa using hn
    subst this
    exact hy
  | succ n ih =>
    intro x y hn hx hy
    cases x with
    | nil => exact hy
    | cons a x =>
      rw [List.cons_append]
      rw [utf8Valid.eq_def] at hx ⊢
      simp only at hx ⊢
      split
      · rename_i h; rw [if_pos h] at hx; exact ih x y (by simp only [List.length_cons] at hn; omega) hx hy
      · rename_i h; rw [if_neg h] at hx
        split
        · rename_i h; rw [if_pos h] at hx
          match x, hn, hx with
          | b :: x, hn, hx =>
            simp only [List.cons_append, Bool.and_eq_true] at hx ⊢
            exact ⟨hx.1, ih x y (by simp only [List.length_cons] at hn; omega) hx.2 hy⟩
        · rename_i h; rw [if_neg h] at hx
          split
          · rename_i h; rw [if_pos h] at hx
            match x, hn, hx with
            | b :: c :: x, hn, hx =>
              simp only [List.cons_append, Bool.and_eq_true] at hx ⊢
              exact ⟨hx.1, ih x y (by simp only [List.length_cons] at hn; omega) hx.2 hy⟩
          · rename_i h; rw [if_neg h] at hx
            split
            · rename_i h; rw [if_pos h] at hx
              match x, hn, hx with
              | b :: c :: d :: x, hn, hx =>
                simp only [List.cons_append, Bool.and_eq_true] at hx ⊢
                exact ⟨hx.1, ih x y (by simp only [List.length_cons] at hn; omega) hx.2 hy⟩
            · rename_i h; rw [if_neg h] at hx; exact hx

theorem utf8_transcodable : Transcodable utf8Codec where
  toAsciiCompatible := utf8_ok
  concat := by
    intro x y u w h1 h2
    simp only [utf8Codec] at *
    split at h1
    · split at h2
      · rename_i hx hy
        cases h1; cases h2
        rw [if_pos (utf8Valid_concat _ x y (Nat.le_refl _) hx hy)]
      · cases h2
    · cases h1
  valid := by
    intro x u h
    simp only [utf8Codec] at h
    split at h
    · rename_i hx; cases h; exact hx
    · cases h
  enc_nil := rfl
  enc_ascii := by intro x c y _; rfl
  enc_high := by intro x a hx h; simp only [utf8Codec, Option.some.injEq] at h; rw [← h]; exact hx
  enc_nonempty := by intro x h; simpa [utf8Codec] using h

theorem latin1Enc_ascii {c : Char} (hc : c.toNat < 128) (y : Str) : latin1Enc (c :: y) = (latin1Enc y).map (c :: ·) := by
  cases y with
  | nil => simp [latin1Enc, hc]
  | cons d y => rw [latin1Enc, if_pos hc]

theorem latin1Enc_split {c : Char} (hc : c.toNat < 128) (y : Str) : ∀ (n : Nat) (x : Str), x.length ≤ n →
    latin1Enc (x ++ c :: y) = (latin1Enc x).bind (fun a => (latin1Enc y).map (fun b => a ++ c :: b)) := by
  intro n
  induction n with
  | zero =>
    intro x hn
    have : x = [] := by simpa using hn
    subst this
    rw [List.nil_append, latin1Enc_ascii hc]
    simp [latin1Enc]
  | succ n ih =>
    intro x hn
    match x, hn with
    | [], _ => rw [List.nil_append, latin1Enc_ascii hc]; simp [latin1Enc]
    | [d], _ =>
      rw [List.singleton_append]
      by_cases hd : d.toNat < 128
      · rw [latin1Enc_ascii hd, latin1Enc_ascii hc, latin1Enc, if_pos hd]
        cases latin1Enc y <;> simp
      · rw [latin1Enc, latin1Enc, if_neg hd, if_neg hd, if_neg]
        · rfl
        · rintro ⟨_, h⟩
          rw [not_cont hc] at h
          cases h
    | d :: e :: x, hn =>
      rw [List.cons_append, List.cons_append]
      by_cases hd : d.toNat < 128
      · have := ih (e :: x) (by simp only [List.length_cons] at *; omega)
        rw [List.cons_append] at this
        rw [latin1Enc_ascii hd, latin1Enc_ascii hd, this]
        cases latin1Enc (e :: x) <;> cases latin1Enc y <;> simp
      · rw [latin1Enc, latin1Enc, if_neg hd, if_neg hd]
        split
        · rw [ih x (by simp only [List.length_cons] at *; omega)]
          cases latin1Enc x <;> cases latin1Enc y <;> simp
        · rfl

theorem latin1Enc_high : ∀ (n : Nat) (x a : Str), x.length ≤ n → (∀ c ∈ x, 128 ≤ c.toNat) → latin1Enc x = some a → ∀ c ∈ a, 128 ≤ c.toNat := by
  intro n
  induction n with
  | zero =>
    intro x a hn _ h
    have : x = [] := by simpa using hn
    subst this
    rw [latin1Enc] at h
    cases h
    simp
  | succ n ih =>
    intro x a hn hx h
    match x, hn, hx, h with
    | [], _, _, h => rw [latin1Enc] at h; cases h; simp
    | [d], _, hx, h =>
      rw [latin1Enc, if_neg (by have := hx d (by simp); omega)] at h
      cases h
    | d :: e :: x, hn, hx, h =>
      rw [latin1Enc, if_neg (by have := hx d (by simp); omega)] at h
      split at h
      · rename_i hcd
        obtain ⟨t, ht, rfl⟩ := Option.map_eq_some_iff.1 h
        have he : 128 ≤ e.toNat ∧ e.toNat < 192 := by
          have := hcd.2
          unfold isCont at this
          simpa using this
        have hv : (Char.ofNat ((d.toNat - 192) * 64 + (e.toNat - 128))).toNat = (d.toNat - 192) * 64 + (e.toNat - 128) :=
          toNat_ofNat (by rcases hcd.1 with h | h <;> omega)
        have hge : 128 ≤ (d.toNat - 192) * 64 + (e.toNat - 128) := by rcases hcd.1 with h | h <;> omega
        intro c hc
        rcases List.mem_cons.1 hc with hc | hc
        · rw [hc, hv]; exact hge
        · exact ih x t (by simp only [List.length_cons] at *; omega) (fun c hc => hx c (List.mem_cons_of_mem _ (List.mem_cons_of_mem _ hc))) ht c hc
      · cases h

theorem latin1Dec_valid : ∀ (x u : Str), latin1Dec x = some u → utf8Valid u = true
  | [], u, h => by rw [latin1Dec] at h; cases h; rfl
  | c :: x, u, h => by
    rw [latin1Dec] at h
    split at h
    · rename_i hc
      obtain ⟨t, ht, rfl⟩ := Option.map_eq_some_iff.1 h
      rw [utf8Valid_ascii hc]
      exact latin1Dec_valid x t ht
    · rename_i hc
      split at h
      · rename_i hc2
        obtain ⟨t, ht, rfl⟩ := Option.map_eq_some_iff.1 h
        have e1 : (Char.ofNat (192 + c.toNat / 64)).toNat = 192 + c.toNat / 64 := toNat_ofNat (by omega)
        have e2 : (Char.ofNat (128 + c.toNat % 64)).toNat = 128 + c.toNat % 64 := toNat_ofNat (by omega)
        rw [utf8Valid.eq_def]
        simp only [e1]
        rw [if_neg (by omega), if_pos (by omega), latin1Dec_valid x t ht, Bool.and_true]
        unfold isCont
        rw [e2]
        simp only [Bool.and_eq_true, decide_eq_true_eq]
        omega
      · cases h

theorem latin1_transcodable : Transcodable latin1Codec where
  toAsciiCompatible := latin1_ok
  concat := by
    intro x y u w h1 h2
    simp only [latin1Codec] at *
    rw [latin1Dec_append, h1, h2]
    rfl
  valid := latin1Dec_valid
  enc_nil := rfl
  enc_ascii := by intro x c y hc; exact latin1Enc_split hc y _ x (Nat.le_refl _)
  enc_high := by intro x a hx h; exact latin1Enc_high _ x a (Nat.le_refl _) hx h
  enc_nonempty := by
    intro x h
    simp only [latin1Codec] at h
    match x, h with
    | [], _ => rfl
    | [d], h => rw [latin1Enc] at h; split at h <;> cases h
    | d :: e :: x, h =>
      rw [latin1Enc] at h
      split at h
      · obtain ⟨t, _, h⟩ := Option.map_eq_some_iff.1 h; cases h
      · split at h
        · obtain ⟨t, _, h⟩ := Option.map_eq_some_iff.1 h; cases h
        · cases h

/-! ### the value functions commute with decoding -/

theorem unesc_high {simple esc : Bool} {x y : Str} (hx : ∀ c ∈ x, 128 ≤ c.toNat) (h0 : x ≠ []) :
    unesc simple esc (x ++ y) = x ++ unesc simple false y := by
  induction x generalizing esc with
  | nil => exact absurd rfl h0
  | cons c x ih =>
    have hc := hx c (by simp)
    have hn : ∀ d : Char, d.toNat < 128 → c ≠ d := by rintro d hd rfl; omega
    have h1 : unesc simple false (x ++ y) = x ++ unesc simple false y := by
      by_cases hx0 : x = []
      · subst hx0; rfl
      · exact ih (fun d hd => hx d (List.mem_cons_of_mem _ hd)) hx0
    rw [List.cons_append, List.cons_append, ← h1]
    cases esc with
    | true => rw [unesc, if_neg (hn _ (by decide))]
    | false => rw [unesc, if_neg (hn _ (by decide)), if_neg (fun h => hn '\n' (by decide) h.2)]

theorem dec_unesc {C : Codec} (hC : Transcodable C) (simple : Bool) : ∀ (n : Nat) (esc : Bool) (e s : Str), e.length ≤ n → C.dec e = some s →
    C.dec (unesc simple esc e) = some (unesc simple esc s) := by
  intro n
  induction n with
  | zero =>
    intro esc e s hn h
    have : e = [] := by simpa using hn
    subst this
    rw [hC.nil] at h
    cases h
    cases esc <;> exact hC.nil
  | succ n ih =>
    intro esc e s hn h
    rcases split_ascii e with hh | ⟨x, c, y, rfl, hx, hc⟩
    · by_cases h0 : e = []
      · subst h0
        rw [hC.nil] at h
        cases h
        cases esc <;> exact hC.nil
      · have hs0 : s ≠ [] := by rintro rfl; exact h0 (hC.nonempty e h)
        have e1 := unesc_high (simple := simple) (esc := esc) (y := []) hh h0
        have e2 := unesc_high (simple := simple) (esc := esc) (y := []) (hC.high e s hh h) hs0
        rw [List.append_nil, unesc, List.append_nil] at e1 e2
        rw [e1, e2, h]
    · have hy : y.length ≤ n := by simp at hn; omega
      rw [hC.ascii x c y hc] at h
      obtain ⟨a, h1, h2⟩ := Option.bind_eq_some_iff.1 h
      obtain ⟨b, h3, rfl⟩ := Option.map_eq_some_iff.1 h2
      -- the part from `c` on
      have tail : ∀ esc, C.dec (unesc simple esc (c :: y)) = some (unesc simple esc (c :: b)) := by
        intro esc
        cases esc with
        | true =>
          rw [unesc, unesc]
          split
          · exact ih false y b hy h3
          · rw [dec_cons hC.toAsciiCompatible hc, ih false y b hy h3]; rfl
        | false =>
          rw [unesc, unesc]
          split
          · exact ih true y b hy h3
          · split
            · rw [dec_cons hC.toAsciiCompatible (by decide), ih false y b hy h3]; rfl
            · rw [dec_cons hC.toAsciiCompatible hc, ih false y b hy h3]; rfl
      by_cases hx0 : x = []
      · subst hx0
        rw [hC.nil] at h1
        cases h1
        exact tail esc
      · have ha0 : a ≠ [] := by rintro rfl; exact hx0 (hC.nonempty x h1)
        rw [unesc_high hx hx0, unesc_high (hC.high x a hx h1) ha0]
        exact hC.concat _ _ _ _ h1 (tail false)

theorem normText_false (s : Str) : normText false s = (newlineSub s).map wsMap := by
  unfold normText
  simp

theorem dec_value {C : Codec} (hC : Transcodable C) {e s : Str} (h : C.dec e = some s) :
    C.dec (simpletextValue e) = some (simpletextValue s) ∧ C.dec (textValue e) = some (textValue s) := by
  rw [simpletextValue_eq, simpletextValue_eq, textValue_eq, textValue_eq, ← normText_false, ← normText_false]
  have := dec_normText hC.toAsciiCompatible false _ e s (Nat.le_refl _) h
  exact ⟨dec_unesc hC true _ false _ _ (Nat.le_refl _) this, dec_unesc hC false _ false _ _ (Nat.le_refl _) this⟩

theorem interpret_trans {a b : Codec} (ha : Transcodable a) (hb : Transcodable b) {v v' : Str} (h : transcode a b v = some v') :
    interpretSimpletext b v' = interpretSimpletext a v ∧ interpretText b v' = interpretText a v := by
  unfold transcode at h
  obtain ⟨u, h1, h2⟩ := Option.bind_eq_some_iff.1 h
  have h3 := hb.inverse u v' (ha.valid v u h1) h2
  obtain ⟨c1, c2⟩ := dec_value ha h1
  obtain ⟨d1, d2⟩ := dec_value hb h3
  unfold interpretSimpletext interpretText
  rw [c1, c2, d1, d2]
  exact ⟨rfl, rfl⟩

end Gomill.Sgf
