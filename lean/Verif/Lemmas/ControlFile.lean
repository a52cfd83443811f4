import Verif.Props.RoundRobin
import Verif.Spec.ControlFile
/-
Pathnames, and the competition type.
-/
namespace Gomill.Conf
open Py Spec

/-! ### Pathnames -/

theorem takeWhile_stop {α : Type} {p : α → Bool} {l r : List α} (hl : ∀ x ∈ l, p x = true) (hr : ∀ x, r.head? = some x → p x = false) :
    (l ++ r).takeWhile p = l ∧ (l ++ r).dropWhile p = r := by
  induction l with
  | nil =>
    cases r with
    | nil => exact ⟨rfl, rfl⟩
    | cons x r =>
      have hx := hr x rfl
      simp [List.takeWhile, List.dropWhile, hx]
  | cons x l ih =>
    have hx := hl x (by simp)
    obtain ⟨h1, h2⟩ := ih (fun y hy => hl y (by simp [hy]))
    simp [List.takeWhile, List.dropWhile, hx, h1, h2]

theorem span_spec {α : Type} (p : α → Bool) (l : List α) :
    ∃ a b, l = a ++ b ∧ (∀ x ∈ a, p x = true) ∧ (∀ x, b.head? = some x → p x = false) ∧ l.takeWhile p = a ∧ l.dropWhile p = b := by
  induction l with
  | nil => exact ⟨[], [], rfl, by simp, by simp, rfl, rfl⟩
  | cons x l ih =>
    obtain ⟨a, b, rfl, h1, h2, h3, h4⟩ := ih
    cases hx : p x with
    | true =>
      refine ⟨x :: a, b, rfl, ?_, h2, by simp [List.takeWhile, hx, h3], by simp [List.dropWhile, hx, h4]⟩
      intro y hy
      rcases List.mem_cons.1 hy with rfl | hy
      · exact hx
      · exact h1 y hy
    | false => exact ⟨[], x :: (a ++ b), rfl, by simp, by simpa using hx, by simp [List.takeWhile, hx], by simp [List.dropWhile, hx]⟩

theorem pathSplit_append {h n : Str} (hn : '/' ∉ n) (hh : h = [] ∨ h.getLast? = some '/') :
    pathSplit (h ++ n) = (if h.all (· = '/') then h else (h.reverse.dropWhile (· = '/')).reverse, n) := by
  have key := takeWhile_stop (p := fun c : Char => decide (c ≠ '/')) (l := n.reverse) (r := h.reverse)
    (fun x hx => decide_eq_true (fun e => hn (e ▸ List.mem_reverse.1 hx)))
    (fun x hx => by
      rw [List.head?_reverse] at hx
      rcases hh with rfl | hh
      · cases hx
      · rw [hh] at hx; cases hx; rfl)
  unfold pathSplit
  rw [List.reverse_append, key.1, key.2, List.reverse_reverse, List.reverse_reverse]

theorem split_total (p : Str) : ∃ h n : Str, p = h ++ n ∧ '/' ∉ n ∧ (h = [] ∨ h.getLast? = some '/') := by
  obtain ⟨a, b, e, h1, h2, _, _⟩ := span_spec (fun c : Char => decide (c ≠ '/')) p.reverse
  refine ⟨b.reverse, a.reverse, ?_, ?_, ?_⟩
  · rw [← List.reverse_append, ← e, List.reverse_reverse]
  · intro h
    exact of_decide_eq_true (h1 _ (List.mem_reverse.1 h)) rfl
  · cases b with
    | nil => exact .inl rfl
    | cons x b =>
      right
      have := h2 x rfl
      rw [List.getLast?_reverse]
      simp only [decide_eq_false_iff_not, not_not] at this
      rw [this]; rfl

theorem dirname_root {h : Str} (hh : ∀ c ∈ h, c = '/') : (if h.all (· = '/') then h else (h.reverse.dropWhile (· = '/')).reverse) = h := by
  rw [if_pos]
  rw [List.all_eq_true]
  exact fun c hc => decide_eq_true (hh c hc)

theorem dirname_under {d : Str} {n : Nat} (hne : d ≠ []) (hd : d.getLast? ≠ some '/') :
    (if (d ++ List.replicate (n + 1) '/').all (· = '/') then d ++ List.replicate (n + 1) '/' else ((d ++ List.replicate (n + 1) '/').reverse.dropWhile (· = '/')).reverse) = d := by
  have hl : ∃ c ∈ d, c ≠ '/' := by
    cases h : d.getLast? with
    | none => exact absurd (List.getLast?_eq_none_iff.1 h) hne
    | some c => exact ⟨c, List.mem_of_getLast? h, fun e => hd (e ▸ h)⟩
  rw [if_neg]
  · rw [List.reverse_append, List.reverse_replicate]
    rw [(takeWhile_stop (p := fun c : Char => decide (c = '/')) (l := List.replicate (n + 1) '/') (r := d.reverse) ?_ ?_).2, List.reverse_reverse]
    · intro x hx
      exact decide_eq_true (List.eq_of_mem_replicate hx)
    · intro x hx
      rw [List.head?_reverse] at hx
      exact decide_eq_false (fun e => hd (e ▸ hx))
  · obtain ⟨c, hc, hne⟩ := hl
    intro h
    rw [List.all_eq_true] at h
    exact hne (of_decide_eq_true (h c (by simp [hc])))

theorem located_split {path dir name : Str} : pathSplit path = (dir, name) ↔ Located path dir name := by
  constructor
  · intro h
    obtain ⟨hd, n, rfl, hn, hh⟩ := split_total path
    rw [pathSplit_append hn hh] at h
    injection h with h1 h2
    subst h2
    by_cases hall : ∀ c ∈ hd, c = '/'
    · rw [dirname_root hall] at h1
      subst h1
      rcases hh with rfl | hh
      · exact .here hn
      · exact .root hn (by rintro rfl; cases hh) hall
    · obtain ⟨a, b, e, ha, hb, _, hdr⟩ := span_spec (fun c : Char => decide (c = '/')) hd.reverse
      rw [if_neg (by rw [List.all_eq_true]; exact fun h => hall (fun c hc => of_decide_eq_true (h c hc)))] at h1
      have e' : hd = b.reverse ++ a.reverse := by rw [← List.reverse_append, ← e, List.reverse_reverse]
      have h1 : b.reverse = dir := by rw [← h1, ← hdr]
      have ha' : a = List.replicate a.length '/' := List.eq_replicate_iff.2 ⟨rfl, fun x hx => of_decide_eq_true (ha x hx)⟩
      have hbne : b ≠ [] := by
        rintro rfl
        apply hall
        intro c hc
        rw [e'] at hc
        have hc : c ∈ a := by simpa using hc
        exact of_decide_eq_true (ha c hc)
      have hblast : b.reverse.getLast? ≠ some '/' := by
        rw [List.getLast?_reverse]
        intro h
        exact of_decide_eq_false (hb _ h) rfl
      cases hlen : a.length with
      | zero =>
        exfalso
        rw [List.length_eq_zero_iff] at hlen
        subst hlen
        rw [List.reverse_nil, List.append_nil] at e'
        rcases hh with rfl | hh
        · exact hbne (by simpa using e'.symm)
        · rw [e'] at hh; exact hblast hh
      | succ k =>
        rw [hlen] at ha'
        rw [e', ha', List.reverse_replicate, h1]
        exact .under k hn (by rw [← h1]; simpa using hbne) (by rw [← h1]; exact hblast)
  · intro h
    cases h with
    | here hn => exact pathSplit_append (h := []) hn (.inl rfl)
    | root hn hne hall =>
      rw [pathSplit_append hn, dirname_root hall]
      cases h : dir.getLast? with
      | none => exact .inl (List.getLast?_eq_none_iff.1 h)
      | some c => rw [hall c (List.mem_of_getLast? h)]; exact .inr rfl
    | under n hn hne hd =>
      rw [pathSplit_append hn, dirname_under hne hd]
      right
      rw [List.replicate_succ', ← List.append_assoc, List.getLast?_concat]

theorem located_total (path : Str) : ∃ dir name, Located path dir name := ⟨_, _, located_split.1 rfl⟩

theorem located_unique {path d n d' n' : Str} (h : Located path d n) (h' : Located path d' n') : d = d' ∧ n = n' := by
  have := (located_split.2 h).symm.trans (located_split.2 h')
  injection this with h1 h2
  exact ⟨h1, h2⟩

theorem located_name {path d n : Str} (h : Located path d n) : '/' ∉ n := by cases h <;> assumption

theorem located_inside {path d n m : Str} (h : Located path d n) (hm : '/' ∉ m) : Located (inside d m) d m := by
  cases h with
  | here _ => exact .here hm
  | root _ hne hall =>
    unfold inside
    rw [if_pos]
    · exact .root hm hne hall
    · cases h : d.getLast? with
      | none => exact .inl (List.getLast?_eq_none_iff.1 h)
      | some c => rw [hall c (List.mem_of_getLast? h)]; exact .inr rfl
  | under n _ hne hd =>
    unfold inside
    rw [if_neg (by rintro (h | h); exacts [hne h, hd h])]
    have := Located.under (dir := d) (name := m) 0 hm hne hd
    simpa using this

theorem pathJoin_inside {d m : Str} (hm : '/' ∉ m) : Gtp.pathJoin d m = inside d m := by
  unfold Gtp.pathJoin inside
  rw [if_neg]
  intro h
  exact hm (List.mem_of_head? h)

theorem inside_append (d m x : Str) : inside d m ++ x = inside d (m ++ x) := by
  unfold inside
  split <;> simp

/-! ### Extensions -/

theorem splitExt_append {code e : Str} (he : '.' ∉ e) : splitExt (code ++ '.' :: e) = if code.any (· ≠ '.') then (code, '.' :: e) else (code ++ '.' :: e, []) := by
  have key := takeWhile_stop (p := fun c : Char => decide (c ≠ '.')) (l := e.reverse) (r := '.' :: code.reverse)
    (fun x hx => decide_eq_true (fun h => he (h ▸ List.mem_reverse.1 hx)))
    (fun x hx => by cases hx; rfl)
  have e1 : (code ++ '.' :: e).reverse = e.reverse ++ '.' :: code.reverse := by simp
  unfold splitExt
  rw [e1, key.1, key.2]
  simp only [List.reverse_reverse, List.any_reverse]

theorem splitExt_none {p : Str} (h : '.' ∉ p) : splitExt p = (p, []) := by
  have key := takeWhile_stop (p := fun c : Char => decide (c ≠ '.')) (l := p.reverse) (r := [])
    (fun x hx => decide_eq_true (fun e => h (e ▸ List.mem_reverse.1 hx))) (fun x hx => nomatch hx)
  rw [List.append_nil] at key
  unfold splitExt
  rw [key.2]

theorem last_dot (p : Str) : '.' ∉ p ∨ ∃ code e, p = code ++ '.' :: e ∧ '.' ∉ e := by
  obtain ⟨a, b, e, h1, h2, _, _⟩ := span_spec (fun c : Char => decide (c ≠ '.')) p.reverse
  have ha : '.' ∉ a := fun h => of_decide_eq_true (h1 _ h) rfl
  cases b with
  | nil =>
    left
    rw [List.append_nil] at e
    intro h
    exact ha (e ▸ List.mem_reverse.2 h)
  | cons x b =>
    right
    have := h2 x rfl
    simp only [decide_eq_false_iff_not, not_not] at this
    subst this
    refine ⟨b.reverse, a.reverse, ?_, by simpa using ha⟩
    have := congrArg List.reverse e
    simpa using this

theorem splitExt_iff {name code ext : Str} : splitExt name = (code, ext) ↔ Ext name code ext := by
  constructor
  · intro h
    rcases last_dot name with hn | ⟨c, e, rfl, he⟩
    · rw [splitExt_none hn] at h
      cases h
      exact Ext.none (n := 0) hn
    · rw [splitExt_append he] at h
      by_cases hc : c.any (· ≠ '.') = true
      · rw [if_pos hc] at h
        cases h
        rw [List.any_eq_true] at hc
        obtain ⟨x, hx, hne⟩ := hc
        exact .some he ⟨x, hx, of_decide_eq_true hne⟩
      · rw [if_neg hc] at h
        cases h
        have hc' : c = List.replicate c.length '.' := by
          refine List.eq_replicate_iff.2 ⟨rfl, fun x hx => ?_⟩
          by_contra hne
          exact hc (List.any_eq_true.2 ⟨x, hx, decide_eq_true hne⟩)
        have : c ++ '.' :: e = List.replicate (c.length + 1) '.' ++ e := by
          rw [List.replicate_succ', ← hc']; simp
        rw [this]
        exact .none he
  · intro h
    cases h with
    | @none n rest hr =>
      cases n with
      | zero => exact splitExt_none hr
      | succ n =>
        rw [List.replicate_succ', List.append_assoc]
        rw [show (['.'] ++ rest : Str) = '.' :: rest from rfl, splitExt_append hr, if_neg]
        rw [List.any_eq_true]
        rintro ⟨x, hx, hne⟩
        exact of_decide_eq_true hne (List.eq_of_mem_replicate hx)
    | some he hc =>
      rw [splitExt_append he, if_pos]
      obtain ⟨x, hx, hne⟩ := hc
      exact List.any_eq_true.2 ⟨x, hx, decide_eq_true hne⟩

theorem ext_total (name : Str) : ∃ code ext, Ext name code ext := ⟨_, _, splitExt_iff.1 rfl⟩

theorem ext_unique {n c e c' e' : Str} (h : Ext n c e) (h' : Ext n c' e') : c = c' ∧ e = e' := by
  have := (splitExt_iff.2 h).symm.trans (splitExt_iff.2 h')
  injection this with h1 h2
  exact ⟨h1, h2⟩

theorem ext_append {n c e : Str} (h : Ext n c e) : n = c ++ e := by
  cases h with
  | none _ => exact (List.append_nil _).symm
  | some _ _ => rfl

/-! ### The competition type -/

theorem skippable_iff {line : Str} : (lstrip line = [] ∨ (lstrip line).head? = some '#') ↔ Skippable line := by
  unfold lstrip Skippable
  constructor
  · intro h
    obtain ⟨a, b, e, h1, h2, _, h4⟩ := span_spec isSpace line
    rw [h4] at h
    refine ⟨a, b, e, h1, ?_⟩
    rcases h with h | h
    · exact .inl h
    · cases b with
      | nil => exact .inl rfl
      | cons x b => cases h; exact .inr ⟨b, rfl⟩
  · rintro ⟨w, r, rfl, hw, hr⟩
    rw [(takeWhile_stop hw ?_).2]
    · rcases hr with rfl | ⟨r, rfl⟩
      · exact .inl rfl
      · exact .inr rfl
    · intro x hx
      rcases hr with rfl | ⟨r, rfl⟩
      · cases hx
      · cases hx; decide

theorem firstLine_iff {lines : List Str} {line : Str} : firstLine lines = some line ↔
    ∃ before after, lines = before ++ line :: after ∧ (∀ l ∈ before, Skippable l) ∧ ¬ Skippable line := by
  induction lines with
  | nil => exact ⟨(fun h => nomatch h), fun ⟨b, a, h, _⟩ => by cases b <;> cases h⟩
  | cons l ls ih =>
    unfold firstLine
    by_cases hs : Skippable l
    · rw [if_pos (skippable_iff.2 hs), ih]
      constructor
      · rintro ⟨b, a, rfl, hb, hl⟩
        refine ⟨l :: b, a, rfl, ?_, hl⟩
        intro x hx
        rcases List.mem_cons.1 hx with rfl | hx
        · exact hs
        · exact hb x hx
      · rintro ⟨b, a, e, hb, hl⟩
        cases b with
        | nil => cases e; exact absurd hs hl
        | cons x b => cases e; exact ⟨b, a, rfl, fun y hy => hb y (by simp [hy]), hl⟩
    · rw [if_neg (fun h => hs (skippable_iff.1 h))]
      constructor
      · intro h; cases h; exact ⟨[], ls, rfl, by simp, hs⟩
      · rintro ⟨b, a, e, hb, hl⟩
        cases b with
        | nil => cases e; rfl
        | cons x b => cases e; exact absurd (hb l (by simp)) hs

theorem isTypeChar_iff {c : Char} : isTypeChar c = true ↔ c = '_' ∨ ('a' ≤ c ∧ c ≤ 'z') ∨ ('A' ≤ c ∧ c ≤ 'Z') ∨ ('0' ≤ c ∧ c ≤ '9') := by
  unfold isTypeChar Char.isAlphanum Char.isAlpha Char.isUpper Char.isLower Char.isDigit
  simp only [Bool.or_eq_true, Bool.and_eq_true, decide_eq_true_eq, ge_iff_le, Char.le_def]
  constructor
  · rintro (h | (h | h) | h)
    exacts [.inl h, .inr (.inr (.inl h)), .inr (.inl h), .inr (.inr (.inr h))]
  · rintro (h | h | h | h)
    exacts [.inl h, .inr (.inl (.inr h)), .inr (.inl (.inl h)), .inr (.inr h)]

theorem isQuote_iff {c : Char} : isQuote c = true ↔ c = '\'' ∨ c = '"' := by
  unfold isQuote
  simp

theorem matchType_iff {line t : Str} : matchType line = some t ↔ TypeLine line t := by
  constructor
  · intro h
    unfold matchType at h
    split at h
    next hp =>
      obtain ⟨r0, hr0⟩ := List.isPrefixOf_iff_prefix.1 hp
      rw [← hr0, List.drop_left] at h
      obtain ⟨w, r1, e1, hw, -, -, hd1⟩ := span_spec isSpace r0
      rw [hd1] at h
      split at h
      next r2 =>
        obtain ⟨w', r3, e2, hw', -, -, hd2⟩ := span_spec isSpace r2
        rw [hd2] at h
        split at h
        next q r4 =>
          obtain ⟨tt, r5, e3, ht, -, ht3, hd3⟩ := span_spec isTypeChar r4
          rw [hd3, ht3] at h
          split at h
          next q' =>
            split at h
            next hc =>
              cases h
              simp only [Bool.and_eq_true, decide_eq_true_eq, Bool.not_eq_true', List.isEmpty_eq_false_iff] at hc
              obtain ⟨⟨⟨hq, _⟩, rfl⟩, hne⟩ := hc
              refine ⟨w, w', q, ?_, ?_, isQuote_iff.1 hq, hne, fun c hc => isTypeChar_iff.1 (ht c hc)⟩
              · rw [← hr0, e1, e2, e3]; simp only [List.append_assoc, List.cons_append, List.nil_append]
              · intro c hc
                rcases List.mem_append.1 hc with hc | hc
                exacts [hw c hc, hw' c hc]
            next => cases h
          next => cases h
        next => cases h
      next => cases h
    next => cases h
  · rintro ⟨w, w', q, rfl, hw, hq, hne, ht⟩
    have h1 : ∀ c ∈ w, isSpace c = true := fun c hc => hw c (by simp [hc])
    have h2 : ∀ c ∈ w', isSpace c = true := fun c hc => hw c (by simp [hc])
    have h3 : ∀ c ∈ t, isTypeChar c = true := fun c hc => isTypeChar_iff.2 (ht c hc)
    have e : "competition_type".toList ++ w ++ ['='] ++ w' ++ [q] ++ t ++ [q] = "competition_type".toList ++ (w ++ '=' :: (w' ++ q :: (t ++ [q]))) := by
      simp only [List.append_assoc, List.cons_append, List.nil_append]
    rw [e]
    unfold matchType
    rw [if_pos (List.isPrefixOf_iff_prefix.2 (List.prefix_append _ _)), List.drop_left]
    rw [(takeWhile_stop h1 (r := '=' :: (w' ++ q :: (t ++ [q]))) (fun x hx => by cases hx; decide)).2]
    have hqs : isSpace q = false := by rcases hq with rfl | rfl <;> decide
    have hqt : isTypeChar q = false := by rcases hq with rfl | rfl <;> decide
    simp only
    rw [(takeWhile_stop h2 (r := q :: (t ++ [q])) (fun x hx => by cases hx; exact hqs)).2]
    simp only
    have h4 := takeWhile_stop h3 (r := [q]) (fun x hx => by cases hx; exact hqt)
    rw [h4.1, h4.2]
    simp only
    rw [isQuote_iff.2 hq, List.isEmpty_eq_false_iff.2 hne]
    simp

theorem splitOn_lines (s : Str) : ∀ l ∈ splitOn '\n' s, '\n' ∉ l := by
  induction s with
  | nil => intro l hl; rw [List.mem_singleton.1 hl]; exact List.not_mem_nil
  | cons c s ih =>
    unfold splitOn
    split
    next =>
      intro l hl
      rcases List.mem_cons.1 hl with rfl | hl
      · exact List.not_mem_nil
      · exact ih l hl
    next hc =>
      split
      next h => exact absurd h (splitOn_ne_nil _ _)
      next p ps h =>
        rw [h] at ih
        intro l hl
        rcases List.mem_cons.1 hl with rfl | hl
        · intro hm
          rcases List.mem_cons.1 hm with hm | hm
          · exact hc hm.symm
          · exact ih p (by simp) hm
        · exact ih l (by simp [hl])

theorem parse_iff {source t : Str} : parseCompetitionType source = some t ↔ TypeOf source t := by
  unfold parseCompetitionType
  constructor
  · intro h
    cases hf : firstLine (splitOn '\n' source) with
    | none => rw [hf] at h; cases h
    | some line =>
      rw [hf] at h
      obtain ⟨b, a, e, hb, hl⟩ := firstLine_iff.1 hf
      refine ⟨b, line, a, ?_, ?_, hb, hl, matchType_iff.1 h⟩
      · rw [← e, join_splitOn]
      · rw [← e]; exact splitOn_lines source
  · rintro ⟨b, line, a, rfl, hn, hb, hl, ht⟩
    rw [splitOn_join (by simp) hn, firstLine_iff.2 ⟨b, a, rfl, hb, hl⟩]
    exact matchType_iff.2 ht

end Gomill.Conf
