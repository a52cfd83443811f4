import Verif.Model.GtpChannel
import Verif.Spec.Gtp
import Verif.Lemmas.Text
import Mathlib.Data.List.TakeWhile
namespace Gomill.Gtp
open Py Spec

/-! ### words -/

def headSpace (s : Str) : Prop := ∀ c, s.head? = some c → isSpace c = true

theorem splitWs_space {c : Char} (s : Str) (h : isSpace c = true) : splitWs (c :: s) = splitWs s := by
  rw [splitWs.eq_def]; simp [h]

theorem splitWs_last {c : Char} {s : Str} (h : isSpace c = false) (hs : headSpace s) :
    splitWs (c :: s) = [c] :: splitWs s := by
  cases s with
  | nil => simp [splitWs, h]
  | cons d s => have := hs d rfl; rw [splitWs.eq_def]; simp [h, this]

theorem splitWs_ne_nil {d : Char} {s : Str} (h : isSpace d = false) : splitWs (d :: s) ≠ [] := by
  cases s with
  | nil => simp [splitWs, h]
  | cons e s =>
    rw [splitWs.eq_def]; simp only [h, Bool.false_eq_true, if_false]
    split
    · simp
    · split <;> simp

theorem splitWs_inner {c d : Char} {s : Str} (h : isSpace c = false) (hd : isSpace d = false) :
    splitWs (c :: d :: s) = (c :: ((splitWs (d :: s)).headD [])) :: (splitWs (d :: s)).tail := by
  have hne := splitWs_ne_nil (s := s) hd
  rw [splitWs.eq_def]; simp only [h, hd, Bool.false_eq_true, if_false]
  cases hq : splitWs (d :: s) with
  | nil => exact absurd hq hne
  | cons w ws => simp

theorem splitWs_gap {gap s : Str} (h : ∀ c ∈ gap, isSpace c = true) : splitWs (gap ++ s) = splitWs s := by
  induction gap with
  | nil => rfl
  | cons c g ih =>
    rw [List.cons_append, splitWs_space _ (h c (by simp)), ih (fun d hd => h d (by simp [hd]))]

theorem splitWs_word {w rest : Str} (hne : w ≠ []) (hw : ∀ c ∈ w, isSpace c = false) (hr : headSpace rest) :
    splitWs (w ++ rest) = w :: splitWs rest := by
  induction w with
  | nil => exact absurd rfl hne
  | cons c w ih =>
    cases w with
    | nil => exact splitWs_last (hw c (by simp)) hr
    | cons d w =>
      have := ih (by simp) (fun x hx => hw x (by simp [hx]))
      rw [List.cons_append, List.cons_append, splitWs_inner (hw c (by simp)) (hw d (by simp))]
      rw [List.cons_append] at this
      rw [this]; rfl

theorem Spec.IsWords.eq_splitWs {s : Str} {ws : List Str} (h : IsWords s ws) : splitWs s = ws := by
  induction h with
  | nil h => rename_i gap; have := splitWs_gap (s := []) h; rw [List.append_nil] at this; rw [this]; rfl
  | cons hgap hne hw hrest h ih => rw [List.append_assoc, splitWs_gap hgap, splitWs_word hne hw hrest, ih]

theorem isWords_splitWs (s : Str) : IsWords s (splitWs s) := by
  have key : ∀ n (s : Str), s.length ≤ n → IsWords s (splitWs s) := by
    intro n
    induction n with
    | zero =>
      intro s hs
      have : s = [] := List.length_eq_zero_iff.mp (Nat.le_zero.mp hs)
      subst this; exact .nil (by simp)
    | succ n ih =>
      intro s hs
      have hsplit : s = s.takeWhile isSpace ++ s.dropWhile isSpace := (List.takeWhile_append_dropWhile).symm
      have hgap : ∀ c ∈ s.takeWhile isSpace, isSpace c = true := fun c hc => List.mem_takeWhile_imp hc
      by_cases hd : s.dropWhile isSpace = []
      · rw [hd, List.append_nil] at hsplit
        have hall : ∀ c ∈ s, isSpace c = true := by rw [hsplit]; exact hgap
        have := splitWs_gap (s := []) hall
        rw [List.append_nil] at this; rw [this]; exact .nil hall
      · let t := s.dropWhile isSpace
        let w := t.takeWhile (fun c => !isSpace c)
        let rest := t.dropWhile (fun c => !isSpace c)
        have ht : t = w ++ rest := (List.takeWhile_append_dropWhile).symm
        have hw : ∀ c ∈ w, isSpace c = false := fun c hc => by simpa using List.mem_takeWhile_imp hc
        have hr : headSpace rest := by
          intro c hc
          have := List.head?_dropWhile_not (fun c => !isSpace c) t
          rw [show (List.dropWhile (fun c => !isSpace c) t).head? = some c from hc] at this
          simpa using this
        have hne : w ≠ [] := by
          intro hw0
          have h0 := List.head?_dropWhile_not isSpace s
          have : t ≠ [] := hd
          cases htt : t with
          | nil => exact this htt
          | cons c t' =>
            have hsd : s.dropWhile isSpace = c :: t' := htt
            rw [hsd] at h0
            have h0 : isSpace c = false := by simpa using h0
            have : w = c :: t'.takeWhile (fun c => !isSpace c) := by
              show t.takeWhile _ = _
              rw [htt]; simp [h0]
            rw [hw0] at this; simp at this
        have hs' : s = s.takeWhile isSpace ++ w ++ rest := by rw [List.append_assoc, ← ht]; exact hsplit
        have hlen : rest.length ≤ n := by
          have h1 : s.length = (s.takeWhile isSpace).length + w.length + rest.length := by
            conv => lhs; rw [hs']
            simp only [List.length_append]
          have := List.length_pos_iff.mpr hne
          omega
        have heq : splitWs s = w :: splitWs rest := by
          conv => lhs; rw [hs']
          rw [List.append_assoc, splitWs_gap hgap, splitWs_word hne hw hr]
        rw [heq]
        conv => arg 1; rw [hs']
        exact .cons hgap hne hw hr (ih rest hlen)
  exact key s.length s (Nat.le_refl _)

theorem isSpace_of_isBlank {c : Char} (h : isBlank c = true) : isSpace c = true := by
  simp only [isBlank, Bool.or_eq_true, decide_eq_true_eq] at h
  rcases h with rfl | rfl <;> decide

theorem normalise_head (s : Str) : (normaliseWhitespace s).head?.map isSpace = s.head?.map isSpace := by
  induction s with
  | nil => rfl
  | cons c s ih =>
    rw [normaliseWhitespace.eq_def]
    by_cases hb : isBlank c = true
    · have hc := isSpace_of_isBlank hb
      simp only [hb, if_true]
      cases s with
      | nil => simp [hc]; decide
      | cons d s =>
        by_cases hd : isBlank d = true
        · simp only [hd, if_true]; rw [ih]; simp [hc, isSpace_of_isBlank hd]
        · simp only [hd]; simp [hc]; decide
    · simp [hb]

theorem splitWs_normalise (s : Str) : splitWs (normaliseWhitespace s) = splitWs s := by
  induction s with
  | nil => rfl
  | cons c s ih =>
    rw [normaliseWhitespace.eq_def]
    by_cases hb : isBlank c = true
    · have hc := isSpace_of_isBlank hb
      simp only [hb, if_true]
      rw [splitWs_space s hc]
      cases s with
      | nil => rw [splitWs_space _ (by decide)]
      | cons d s =>
        by_cases hd : isBlank d = true
        · simp only [hd, if_true]; exact ih
        · simp only [hd, Bool.false_eq_true, if_false]; rw [splitWs_space _ (by decide)]; exact ih
    · simp only [hb, Bool.false_eq_true, if_false]
      by_cases hc : isSpace c = true
      · rw [splitWs_space _ hc, splitWs_space _ hc, ih]
      · have hc : isSpace c = false := by simpa using hc
        have hh := normalise_head s
        cases s with
        | nil => rfl
        | cons d s =>
          generalize normaliseWhitespace (d :: s) = n at ih hh
          cases n with
          | nil => simp at hh
          | cons e n =>
            have hh : isSpace e = isSpace d := by simpa using hh
            by_cases hd : isSpace d = true
            · rw [splitWs_last hc (by intro x hx; simp at hx; rw [← hx, hh, hd]),
                splitWs_last hc (by intro x hx; simp at hx; rw [← hx, hd]), ih]
            · have hd : isSpace d = false := by simpa using hd
              rw [splitWs_inner hc (by rw [hh, hd]), splitWs_inner hc hd, ih]

theorem toNat_inj {c d : Char} (h : c.toNat = d.toNat) : c = d := by
  apply Char.ext; apply UInt32.toNat.inj; exact h

theorem toNat_eq_iff {c d : Char} : c.toNat = d.toNat ↔ c = d := ⟨toNat_inj, fun h => h ▸ rfl⟩

theorem significant_eq (line : Str) :
    significant line = (line.takeWhile (· ≠ '#')).filter (fun c => !isInputControl c) := by
  unfold significant
  apply List.filter_congr
  intro c _
  have ht : c = '\t' ↔ c.toNat = 9 := by rw [← toNat_eq_iff]; rfl
  rw [Bool.eq_iff_iff]
  simp [isInputControl, ht]
  omega

theorem splitWs_preprocess (line : Str) : splitWs (preprocessLine line) = splitWs (significant line) := by
  rw [preprocessLine, splitWs_normalise, significant_eq]

theorem isBlank_of_significant {line : Str} {c : Char} (h : c ∈ significant line) (hs : isSpace c = true) :
    isBlank c = true := by
  simp only [significant, List.mem_filter] at h
  have h := h.2
  have ht : c = '\t' ↔ c.toNat = 9 := by rw [← toNat_eq_iff]; rfl
  have hn : c = '\n' ↔ c.toNat = 10 := by rw [← toNat_eq_iff]; rfl
  have hr : c = '\r' ↔ c.toNat = 13 := by rw [← toNat_eq_iff]; rfl
  have hp : c = ' ' ↔ c.toNat = 32 := by rw [← toNat_eq_iff]; rfl
  simp only [isSpace, isBlank, Bool.or_eq_true, decide_eq_true_eq, Bool.and_eq_true, ht, hn, hr, hp] at *
  omega

theorem normalise_blanks {s : Str} (h : ∀ c ∈ s, isBlank c = true) :
    normaliseWhitespace s = [] ∨ normaliseWhitespace s = [' '] := by
  induction s with
  | nil => exact Or.inl rfl
  | cons c s ih =>
    have ih := ih (fun d hd => h d (by simp [hd]))
    right
    rw [normaliseWhitespace.eq_def]
    simp only [h c (by simp), if_true]
    cases s with
    | nil => rfl
    | cons d s =>
      simp only [h d (by simp), if_true]
      rcases ih with ih | ih
      · have := normalise_head (d :: s)
        rw [ih] at this; simp at this
      · exact ih

theorem splitWs_eq_nil {s : Str} : splitWs s = [] ↔ ∀ c ∈ s, isSpace c = true := by
  constructor
  · intro h
    have := isWords_splitWs s
    rw [h] at this
    cases this with
    | nil h => exact h
  · intro h
    have := splitWs_gap (s := []) h
    rw [List.append_nil] at this; rw [this]; rfl

theorem preprocess_blank {line : Str} :
    (preprocessLine line = [] ∨ preprocessLine line = [' ']) ↔ splitWs (significant line) = [] := by
  constructor
  · intro h
    rw [← splitWs_preprocess]
    rcases h with h | h <;> rw [h]
    · rfl
    · decide
  · intro h
    have h := splitWs_eq_nil.mp h
    have := normalise_blanks (s := significant line) (fun c hc => isBlank_of_significant hc (h c hc))
    rw [significant_eq] at this
    exact this

/-! ### command ids -/

theorem takeWhile_digits {ds r : Str} (h : ∀ c ∈ ds, c.isDigit = true) (hr : ∀ c, r.head? = some c → c.isDigit = false) :
    (ds ++ r).takeWhile Char.isDigit = ds := by
  rw [List.takeWhile_append_of_pos h]
  cases r with
  | nil => simp
  | cons c r => simp [hr c rfl]

theorem matchCommandId_of_isId {i c : Str} (hi : IsId i) (hc : ∀ x, c.head? = some x → x.isDigit = false) :
    matchCommandId (i ++ c) = some i := by
  obtain ⟨ds, hne, hd, hi⟩ := hi
  rcases hi with hi | rfl
  · subst hi
    cases hds : i with
    | nil => exact absurd hds hne
    | cons x xs =>
      have hx : x.isDigit = true := hd x (by simp [hds])
      have hx' : x ≠ '-' := ne_of_isDigit hx (by decide)
      have := takeWhile_digits hd hc
      rw [hds] at this
      rw [matchCommandId.eq_def, List.cons_append]
      split
      · rename_i r heq; simp at heq; exact absurd heq.1 hx'
      · rw [List.cons_append] at this; rw [this]; simp
  · simp only [List.cons_append, matchCommandId]
    rw [takeWhile_digits hd hc, if_neg hne]

theorem matchCommandId_none {w : Str} : matchCommandId w = none ↔ ¬ StartsWithId w := by
  have key : ∀ (s : Str), s.takeWhile Char.isDigit ≠ [] →
      ∃ ds c, ds ≠ [] ∧ (∀ x ∈ ds, x.isDigit = true) ∧ s = ds ++ c := fun s h =>
    ⟨_, s.dropWhile Char.isDigit, h, fun x hx => List.mem_takeWhile_imp hx, (List.takeWhile_append_dropWhile).symm⟩
  constructor
  · rintro h ⟨i, c, ⟨ds, hne, hd, hi⟩, rfl⟩
    obtain ⟨x, xs, hds⟩ := List.exists_cons_of_ne_nil hne
    have hx := hd x (by simp [hds])
    rcases hi with rfl | rfl
    · rw [hds, matchCommandId.eq_def, List.cons_append] at h
      split at h
      · rename_i r heq; simp at heq; exact absurd heq.1 (ne_of_isDigit hx (by decide))
      · simp [hx] at h
    · rw [hds] at h
      simp [matchCommandId, hx] at h
  · intro h
    rw [matchCommandId.eq_def]
    split
    · rename_i r
      by_cases hq : r.takeWhile Char.isDigit = []
      · simp [hq]
      · exfalso
        obtain ⟨ds, c, h1, h2, h3⟩ := key r hq
        exact h ⟨'-' :: ds, c, ⟨ds, h1, h2, Or.inr rfl⟩, by rw [h3]; rfl⟩
    · by_cases hq : w.takeWhile Char.isDigit = []
      · simp [hq]
      · exfalso
        obtain ⟨ds, c, h1, h2, h3⟩ := key w hq
        exact h ⟨ds, c, ⟨ds, h1, h2, Or.inl rfl⟩, h3⟩

theorem parseInt_neg {ds : Str} (hne : ds ≠ []) (h : ∀ c ∈ ds, c.isDigit = true) :
    parseInt ('-' :: ds) = .ok (-(Int.ofNat (Nat.ofDigitChars 10 ds 0))) := by
  have hns : ∀ c ∈ ds, isSpace c = false := fun c hc => isSpace_of_isDigit (h c hc)
  have hs : strip ('-' :: ds) = '-' :: ds := strip_of_noSpace (by
    intro c hc
    rcases List.mem_cons.mp hc with rfl | hc
    · decide
    · exact hns c hc)
  rw [parseInt, hs]
  simp only [lstrip_of_noSpace hns, parseDigits]
  rw [if_pos ⟨hne, by simpa using h⟩]
  rfl

theorem clipId_reported {i : Str} (hi : IsId i) : ReportedId i (clipId i) := by
  have : ∃ k, parseInt i = .ok k := by
    obtain ⟨ds, hne, hd, rfl | rfl⟩ := hi
    · rw [parseInt_of_digits hd, parseDigits, if_pos ⟨hne, by simpa using hd⟩]; exact ⟨_, rfl⟩
    · exact ⟨_, parseInt_neg hne hd⟩
  obtain ⟨k, hk⟩ := this
  refine ⟨k, hk, ?_⟩
  unfold clipId
  rw [hk]
  simp only
  by_cases h1 : k < 0
  · left; rw [if_pos h1]; exact ⟨h1, rfl⟩
  · rw [if_neg h1]
    by_cases h2 : k > gtpIntMax
    · right; right; rw [if_pos h2]; exact ⟨h2, by decide⟩
    · right; left; rw [if_neg h2]
      refine ⟨by omega, ?_, rfl⟩
      unfold gtpIntMax at h2; omega

/-! ### two newlines -/

theorem nn_append {x y : Str} : "\n\n".toList <:+: x ++ y ↔
    "\n\n".toList <:+: x ∨ "\n\n".toList <:+: y ∨ (x.getLast? = some '\n' ∧ y.head? = some '\n') := by
  induction x with
  | nil => simp [List.infix_nil]
  | cons c x ih =>
    rw [List.cons_append, List.infix_cons_iff, ih, List.infix_cons_iff]
    cases x with
    | nil =>
      cases y with
      | nil => simp [List.prefix_cons_iff]
      | cons d y =>
        simp [List.prefix_cons_iff]
        grind
    | cons d x =>
      simp [List.prefix_cons_iff, List.getLast?_cons_cons]
      grind

theorem replaceBlankLines_cons {c : Char} {s : Str} (h : ¬ (c = '\n' ∧ s.head? = some '\n')) :
    replaceBlankLines (c :: s) = c :: replaceBlankLines s := by
  rw [replaceBlankLines.eq_def]
  split
  · rename_i s' heq; simp at heq; exfalso; apply h; simp [heq.1, heq.2]
  · rename_i heq; simp at heq; simp [heq.1, heq.2]
  · simp_all

theorem replaceBlankLines_ind {P : Str → Prop} (h0 : P []) (h1 : ∀ s, P s → P ('\n' :: '\n' :: s))
    (h2 : ∀ c s, ¬ (c = '\n' ∧ s.head? = some '\n') → P s → P (c :: s)) : ∀ s, P s := by
  have key : ∀ n (s : Str), s.length ≤ n → P s := by
    intro n
    induction n with
    | zero => intro s hs; have : s = [] := List.length_eq_zero_iff.mp (Nat.le_zero.mp hs); subst this; exact h0
    | succ n ih =>
      intro s hs
      cases s with
      | nil => exact h0
      | cons c s =>
        by_cases h : c = '\n' ∧ s.head? = some '\n'
        · obtain ⟨rfl, h⟩ := h
          cases s with
          | nil => simp at h
          | cons d s => simp at h; subst h; exact h1 s (ih s (by simp at hs; omega))
        · exact h2 c s h (ih s (by simp at hs; omega))
  exact fun s => key s.length s (Nat.le_refl _)

theorem replaceBlankLines_head (s : Str) : (replaceBlankLines s).head? = s.head? := by
  induction s using replaceBlankLines_ind with
  | h0 => rfl
  | h1 s _ => simp [replaceBlankLines]
  | h2 c s h _ => rw [replaceBlankLines_cons h]; simp

theorem replaceBlankLines_last (s : Str) : (replaceBlankLines s).getLast? = s.getLast? := by
  induction s using replaceBlankLines_ind with
  | h0 => rfl
  | h1 s ih =>
    simp only [replaceBlankLines, List.getLast?_cons, ih]
    cases s.getLast? <;> simp
  | h2 c s h ih => rw [replaceBlankLines_cons h, List.getLast?_cons, ih, ← List.getLast?_cons]

theorem replaceBlankLines_nn (s : Str) : "\n\n".toList <:+: replaceBlankLines s ↔ "\n\n\n".toList <:+: s := by
  induction s using replaceBlankLines_ind with
  | h0 => simp [replaceBlankLines]
  | h1 s ih =>
    have hh := replaceBlankLines_head s
    simp only [replaceBlankLines, List.infix_cons_iff, ih]
    cases s with
    | nil => simp [replaceBlankLines, List.prefix_cons_iff]
    | cons c s =>
      generalize replaceBlankLines (c :: s) = r at hh
      cases r with
      | nil => simp at hh
      | cons d r =>
        simp at hh; subst hh
        simp [List.prefix_cons_iff]; grind
  | h2 c s h ih =>
    have hh := replaceBlankLines_head s
    rw [replaceBlankLines_cons h, List.infix_cons_iff, ih, List.infix_cons_iff]
    generalize replaceBlankLines s = r at hh
    cases s with
    | nil => cases r <;> simp_all [List.prefix_cons_iff]
    | cons d s =>
      cases r with
      | nil => simp at hh
      | cons e r =>
        simp at hh; subst hh
        simp [List.prefix_cons_iff] at h ⊢; grind

theorem mem_replaceBlankLines {c : Char} {s : Str} (h : c ∈ replaceBlankLines s) : c = '.' ∨ c ∈ s := by
  induction s using replaceBlankLines_ind with
  | h0 => exact Or.inr h
  | h1 s ih =>
    simp only [replaceBlankLines, List.mem_cons] at h
    simp only [List.mem_cons]
    grind
  | h2 d s hq ih =>
    rw [replaceBlankLines_cons hq] at h
    simp only [List.mem_cons] at h ⊢
    grind

end Gomill.Gtp
