import Verif.Model.EngineDesc
import Verif.Spec.EngineDesc
import Verif.Lemmas.Gtp
import Verif.Lemmas.SgfTransText
import Verif.Props.SgfRunner
import Verif.Props.GtpController
/-
C68: Engine_description.
-/
namespace Gomill.Gtp
open Py Spec
open Gomill.Sgf (utf8Valid utf8Valid_concat utf8Valid_append utf8Valid_ascii isCont)

/-! ### UTF-8 -/

theorem utf8Valid_cancel : ∀ (n : Nat) (x y : Str), x.length ≤ n → utf8Valid x = true → utf8Valid (x ++ y) = true → utf8Valid y = true := by
  intro n
  induction n with
  | zero =>
    intro x y hn _ hy
    have : x = [] := by simpa using hn
    subst this
    exact hy
  | succ n ih =>
    intro x y hn hx hy
    cases x with
    | nil => exact hy
    | cons a x =>
      rw [List.cons_append] at hy
      rw [utf8Valid.eq_def] at hx hy
      simp only at hx hy
      split at hx
      · rename_i h; rw [if_pos h] at hy; exact ih x y (by simp only [List.length_cons] at hn; omega) hx hy
      · rename_i h; rw [if_neg h] at hy
        split at hx
        · rename_i h; rw [if_pos h] at hy
          match x, hn, hx, hy with
          | b :: x, hn, hx, hy =>
            simp only [List.cons_append, Bool.and_eq_true] at hx hy
            exact ih x y (by simp only [List.length_cons] at hn; omega) hx.2 hy.2
        · rename_i h; rw [if_neg h] at hy
          split at hx
          · rename_i h; rw [if_pos h] at hy
            match x, hn, hx, hy with
            | b :: c :: x, hn, hx, hy =>
              simp only [List.cons_append, Bool.and_eq_true] at hx hy
              exact ih x y (by simp only [List.length_cons] at hn; omega) hx.2 hy.2
          · rename_i h; rw [if_neg h] at hy
            split at hx
            · rename_i h; rw [if_pos h] at hy
              match x, hn, hx, hy with
              | b :: c :: d :: x, hn, hx, hy =>
                simp only [List.cons_append, Bool.and_eq_true] at hx hy
                exact ih x y (by simp only [List.length_cons] at hn; omega) hx.2 hy.2
            · rename_i h; cases hx

theorem toLower_toNat (c : Char) : c.toLower.toNat = c.toNat ∨ c.toNat < 128 ∧ c.toLower.toNat < 128 := by
  by_cases h : c.toNat < 128
  · right
    refine ⟨h, ?_⟩
    have key : ∀ n < 128, (Char.ofNat n).toLower.toNat < 128 := by decide +kernel
    have := key c.toNat h
    rwa [Char.ofNat_toNat] at this
  · left
    unfold Char.toLower
    split
    · rename_i h'
      have h1 : c.val ≤ 90 := h'.2
      have : c.toNat ≤ 90 := h1
      omega
    · rfl

/-- Changing the case of letters doesn't change whether a string is UTF-8. -/
theorem utf8Valid_lower : ∀ (n : Nat) (x : Str), x.length ≤ n → utf8Valid (lower x) = utf8Valid x := by
  intro n
  induction n with
  | zero =>
    intro x hn
    have : x = [] := by simpa using hn
    subst this
    rfl
  | succ n ih =>
    have hbig : ∀ c : Char, 128 ≤ c.toNat → c.toLower.toNat = c.toNat := by
      intro c hc
      rcases toLower_toNat c with h | h
      · exact h
      · omega
    have hcont : ∀ c : Char, isCont c.toLower = isCont c := by
      intro c
      unfold isCont
      rcases toLower_toNat c with h | h
      · rw [h]
      · have h1 : ¬ (128 ≤ c.toNat) := by omega
        have h2 : ¬ (128 ≤ c.toLower.toNat) := by omega
        simp [h1, h2]
    have hb : ∀ (b : Char) (k : Nat), 128 ≤ k → isCont b = true → (decide (k ≤ b.toLower.toNat) = decide (k ≤ b.toNat)) ∧ b.toLower.toNat = b.toNat := by
      intro b k _ h
      have : 128 ≤ b.toNat := by
        unfold isCont at h
        simp only [Bool.and_eq_true, decide_eq_true_eq] at h
        exact h.1
      rw [hbig b this]
      exact ⟨rfl, rfl⟩
    intro x hn
    cases x with
    | nil => rfl
    | cons a x =>
      show utf8Valid (a.toLower :: lower x) = _
      by_cases ha : a.toNat < 128
      · have ha' : a.toLower.toNat < 128 := by
          rcases toLower_toNat a with h | h
          · omega
          · exact h.2
        rw [utf8Valid_ascii ha, utf8Valid_ascii ha']
        exact ih x (by simp only [List.length_cons] at hn; omega)
      · have hae := hbig a (by omega)
        rw [utf8Valid.eq_def, utf8Valid.eq_def (a :: x)]
        simp only
        rw [hae, if_neg ha, if_neg ha]
        split
        · match x, hn with
          | [], _ => rfl
          | b :: x, hn =>
            simp only [lower, List.map_cons, hcont]
            have := ih x (by simp only [List.length_cons] at hn; omega)
            unfold lower at this
            rw [this]
        · split
          · match x, hn with
            | [], _ => rfl
            | [b], _ => rfl
            | b :: c :: x, hn =>
              simp only [lower, List.map_cons, hcont]
              have := ih x (by simp only [List.length_cons] at hn; omega)
              unfold lower at this
              rw [this]
              cases hcb : isCont b with
              | false => simp
              | true => rw [(hb b 160 (by omega) hcb).2]
          · split
            · match x, hn with
              | [], _ => rfl
              | [b], _ => rfl
              | [b, c], _ => rfl
              | b :: c :: d :: x, hn =>
                simp only [lower, List.map_cons, hcont]
                have := ih x (by simp only [List.length_cons] at hn; omega)
                unfold lower at this
                rw [this]
                cases hcb : isCont b with
                | false => simp
                | true => rw [(hb b 160 (by omega) hcb).2]
            · rfl

/-! ### The functions on strings -/

theorem beforeSep_spec (sep : Str) : ∀ s, (∀ a, beforeSep sep s = some a ↔ Before sep s a) ∧ (beforeSep sep s = none ↔ ∀ a, ¬ Before sep s a) := by
  have huniq : ∀ s a b, Before sep s a → Before sep s b → a = b := by
    rintro s a b ⟨⟨r, h1⟩, h2⟩ ⟨⟨r', h3⟩, h4⟩
    have hl : a.length = b.length := Nat.le_antisymm (h2 b r' h3) (h4 a r h1)
    have : a ++ (sep ++ r) = b ++ (sep ++ r') := by rw [← List.append_assoc, ← List.append_assoc, ← h1, h3]
    exact (List.append_inj this hl).1
  have hsome : ∀ s a, beforeSep sep s = some a → Before sep s a := by
    intro s
    induction s with
    | nil =>
      intro a h
      unfold beforeSep at h
      split at h
      · rename_i hp
        cases h
        rw [List.isPrefixOf_iff_prefix] at hp
        rw [List.prefix_nil.1 hp]
        exact ⟨⟨[], by simp⟩, fun _ _ _ => by simp⟩
      · cases h
    | cons c s ih =>
      intro a h
      unfold beforeSep at h
      split at h
      · rename_i hp
        cases h
        rw [List.isPrefixOf_iff_prefix] at hp
        obtain ⟨r, hr⟩ := hp
        exact ⟨⟨r, by simpa using hr.symm⟩, fun _ _ _ => by simp⟩
      · rename_i hp
        cases hb : beforeSep sep s with
        | none => rw [hb] at h; cases h
        | some a' =>
          rw [hb] at h
          cases h
          obtain ⟨⟨r, h1⟩, h2⟩ := ih a' hb
          refine ⟨⟨r, by rw [h1]; simp⟩, ?_⟩
          intro x r' hx
          cases x with
          | nil =>
            exfalso
            apply hp
            rw [List.isPrefixOf_iff_prefix]
            exact ⟨r', by simpa using hx.symm⟩
          | cons d x =>
            simp only [List.cons_append, List.cons.injEq] at hx
            have := h2 x r' hx.2
            simp only [List.length_cons]
            omega
  have hnone : ∀ s, beforeSep sep s = none → ∀ a, ¬ Before sep s a := by
    intro s
    induction s with
    | nil =>
      rintro h a ⟨⟨r, hr⟩, _⟩
      unfold beforeSep at h
      split at h
      · cases h
      · rename_i hp
        apply hp
        have : sep = [] := by
          have := congrArg List.length hr
          simp only [List.length_nil, List.length_append] at this
          exact List.length_eq_zero_iff.1 (by omega)
        rw [this]; rfl
    | cons c s ih =>
      rintro h a ⟨⟨r, hr⟩, hmin⟩
      unfold beforeSep at h
      split at h
      · cases h
      · rename_i hp
        rw [Option.map_eq_none_iff] at h
        cases a with
        | nil =>
          apply hp
          rw [List.isPrefixOf_iff_prefix]
          exact ⟨r, by simpa using hr.symm⟩
        | cons d a =>
          simp only [List.cons_append, List.cons.injEq] at hr
          refine ih h a ⟨⟨r, hr.2⟩, ?_⟩
          intro x r' hx
          have := hmin (c :: x) r' (by rw [hx]; simp)
          simp only [List.length_cons] at this
          omega
  intro s
  refine ⟨fun a => ⟨hsome s a, fun h => ?_⟩, hnone s, fun h => ?_⟩
  · cases hb : beforeSep sep s with
    | none => exact absurd h (hnone s hb a)
    | some b => rw [huniq s a b h (hsome s b hb)]
  · cases hb : beforeSep sep s with
    | none => rfl
    | some b => exact absurd (hsome s b hb) (h b)

theorem splitWs_spec : ∀ s, (splitWs s = [] ↔ ∀ c ∈ s, isSpace c = true) ∧ ∀ w ws, splitWs s = w :: ws → FirstWord s w := by
  intro s
  induction s with
  | nil => exact ⟨by simp [splitWs], by simp [splitWs]⟩
  | cons c s ih =>
    by_cases hc : isSpace c = true
    · rw [splitWs_space s hc]
      refine ⟨?_, ?_⟩
      · rw [ih.1]; simp [hc]
      · intro w ws h
        obtain ⟨x, r, h1, h2, h3, h4, h5⟩ := ih.2 w ws h
        exact ⟨c :: x, r, by rw [h1]; simp, by simpa [hc] using h2, h3, h4, h5⟩
    · have hc' : isSpace c = false := by simpa using hc
      refine ⟨⟨fun h => absurd h (splitWs_ne_nil hc'), fun h => by simp [hc'] at h⟩, ?_⟩
      intro w ws h
      cases s with
      | nil =>
        rw [splitWs_last hc' (by intro d hd; cases hd)] at h
        cases h
        exact ⟨[], [], by simp, by simp, by simp, by simpa using hc', by simp⟩
      | cons d s =>
        by_cases hd : isSpace d = true
        · rw [splitWs_last hc' (by intro e he; cases he; exact hd)] at h
          cases h
          exact ⟨[], d :: s, by simp, by simp, by simp, by simpa using hc', by simpa using hd⟩
        · have hd' : isSpace d = false := by simpa using hd
          obtain ⟨w', ws', e1⟩ : ∃ w' ws', splitWs (d :: s) = w' :: ws' := by
            cases hx : splitWs (d :: s) with
            | nil => exact absurd hx (splitWs_ne_nil hd')
            | cons a b => exact ⟨a, b, rfl⟩
          have h' : splitWs (c :: d :: s) = (c :: w') :: ws' := by
            rw [splitWs.eq_def]
            simp only [hc', hd', Bool.false_eq_true, if_false, e1]
          rw [h'] at h
          cases h
          obtain ⟨x, r, h1, h2, h3, h4, h5⟩ := ih.2 w' _ e1
          have hx : x = [] := by
            cases x with
            | nil => rfl
            | cons e x =>
              simp only [List.cons_append, List.cons.injEq] at h1
              rw [h1.1] at hd'
              rw [h2 e (by simp)] at hd'
              cases hd'
          subst hx
          refine ⟨[], r, by simpa using h1, by simp, by simp, ?_, h5⟩
          intro e he
          rcases List.mem_cons.1 he with rfl | he
          · exact hc'
          · exact h4 e he

theorem lstrip_parts (s : Str) : ∃ ws, s = ws ++ lstrip s ∧ (∀ c ∈ ws, isSpace c = true) ∧ ∀ c, (lstrip s).head? = some c → isSpace c = false := by
  refine ⟨s.takeWhile isSpace, (List.takeWhile_append_dropWhile).symm, ?_, ?_⟩
  · intro c hc
    exact List.mem_takeWhile_imp hc
  · intro c hc
    unfold lstrip at hc
    exact List.head?_dropWhile_not isSpace s |> fun h => by
      rw [hc] at h
      simpa using h

theorem afterName_unique {n s v v' : Str} (h : AfterName n s v) (h' : AfterName n s v') : v = v' := by
  obtain ⟨p, ws, h1, h2, h3, h4⟩ := h
  obtain ⟨p', ws', h1', h2', h3', h4'⟩ := h'
  have hl : p.length = p'.length := by
    have := congrArg List.length (h2.trans h2'.symm)
    simpa [lower] using this
  have hr := List.append_inj (by rw [List.append_assoc] at h1 h1'; rw [← h1, h1'] : p ++ (ws ++ v) = p' ++ (ws' ++ v')) hl
  have key : ∀ ws v, (∀ c ∈ ws, isSpace c = true) → (∀ c, v.head? = some c → isSpace c = false) → lstrip (ws ++ v) = v := by
    intro ws v h1 h2
    unfold lstrip
    rw [List.dropWhile_append_of_pos h1]
    cases v with
    | nil => rfl
    | cons c v => rw [List.dropWhile_cons_of_neg (by simp [h2 c rfl])]
  rw [← key ws v h3 h4, hr.2, key ws' v' h3' h4']

theorem stripName_spec (name : Option Str) (version : Str) :
    (∃ n, name = some n ∧ AfterName n version (stripName name version)) ∨
    ((∀ n v, name = some n → ¬ AfterName n version v) ∧ stripName name version = version) := by
  cases name with
  | none => exact .inr ⟨(fun _ _ h => nomatch h), rfl⟩
  | some n =>
    by_cases hp : (lower n).isPrefixOf (lower version) = true
    · refine .inl ⟨n, rfl, ?_⟩
      have he : stripName (some n) version = lstrip (version.drop n.length) := by
        show (if (lower n).isPrefixOf (lower version) then _ else _) = _
        rw [if_pos hp]
      rw [he]
      obtain ⟨ws, h1, h2, h3⟩ := lstrip_parts (version.drop n.length)
      refine ⟨version.take n.length, ws, ?_, ?_, h2, h3⟩
      · rw [List.append_assoc, ← h1, List.take_append_drop]
      · rw [List.isPrefixOf_iff_prefix, List.prefix_iff_eq_take] at hp
        unfold lower at *
        rw [List.map_take, hp]
        simp
    · refine .inr ⟨?_, ?_⟩
      · rintro n' v h ⟨p, ws, h1, h2, _⟩
        cases h
        apply hp
        rw [List.isPrefixOf_iff_prefix]
        refine ⟨lower (ws ++ v), ?_⟩
        rw [h1, ← h2]
        simp [lower]
      · show (if (lower n).isPrefixOf (lower version) then _ else _) = _
        rw [if_neg hp]

theorem firstWord_nonblank {s w : Str} (h : FirstWord s w) : ∃ c ∈ s, isSpace c = false := by
  obtain ⟨ws, r, h1, _, h3, h4, _⟩ := h
  cases w with
  | nil => exact absurd rfl h3
  | cons c w => exact ⟨c, by rw [h1]; simp, h4 c (by simp)⟩

theorem firstWord_unique {s w w' : Str} (h : FirstWord s w) (h' : FirstWord s w') : w = w' := by
  have key : ∀ {s w}, FirstWord s w → w = (lstrip s).takeWhile (fun c => !isSpace c) := by
    rintro s w ⟨ws, r, h1, h2, h3, h4, h5⟩
    rw [h1, List.append_assoc]
    unfold lstrip
    rw [List.dropWhile_append_of_pos h2]
    cases w with
    | nil => exact absurd rfl h3
    | cons c w =>
      rw [List.cons_append, List.dropWhile_cons_of_neg (by simp [h4 c]), ← List.cons_append, List.takeWhile_append_of_pos (by
        intro a ha; simp [h4 a ha])]
      cases r with
      | nil => simp
      | cons d r => rw [List.takeWhile_cons_of_neg (by simp [h5 d rfl])]; simp
  rw [key h, key h']

theorem trimmed_unique {v a b : Str} (h : Trimmed v a) (h' : Trimmed v b) : a = b := by
  have hu : ∀ {sep a b : Str}, Before sep v a → Before sep v b → a = b := by
    intro sep a b ha hb
    have h1 := ((beforeSep_spec sep v).1 a).2 ha
    have h2 := ((beforeSep_spec sep v).1 b).2 hb
    rw [h1] at h2
    exact Option.some.inj h2
  cases h with
  | whole h1 => cases h' with
    | whole => rfl
    | mogo h2 => omega
    | pachi h2 => omega
    | word h2 => omega
  | mogo h1 h2 => cases h' with
    | whole => omega
    | mogo _ k2 => exact hu h2 k2
    | pachi _ k2 _ => exact absurd h2 (k2 _)
    | word _ k2 _ => exact absurd h2 (k2 _)
  | pachi h1 h2 h3 => cases h' with
    | whole => omega
    | mogo _ k2 => exact absurd k2 (h2 _)
    | pachi _ _ k3 => exact hu h3 k3
    | word _ _ k3 => exact absurd h3 (k3 _)
  | word h1 h2 h3 h4 => cases h' with
    | whole => omega
    | mogo _ k2 => exact absurd k2 (h2 _)
    | pachi _ _ k3 => exact absurd k3 (h3 _)
    | word _ _ _ k4 => exact firstWord_unique h4 k4

theorem fixVersion_spec (name : Option Str) (version : Str) :
    (∀ clean, fixVersion name version = .ok clean ↔ CleanVersion name version clean) ∧
    (∀ e, fixVersion name version = .error e → e = .indexError ∧ 64 < (stripName name version).length ∧
      ∀ c ∈ stripName name version, isSpace c = true) := by
  have htrim : ∀ v, (∀ clean, fixVersion name version = .ok clean → stripName name version = v → Trimmed v clean) := by
    rintro v clean h rfl
    unfold fixVersion at h
    simp only at h
    split at h
    · rename_i hlen
      cases h1 : beforeSep ". Please read http:".toList (stripName name version) with
      | some a =>
        rw [h1] at h
        cases h
        exact .mogo hlen (((beforeSep_spec _ _).1 _).1 h1)
      | none =>
        rw [h1] at h
        simp only at h
        have n1 := (beforeSep_spec _ _).2.1 h1
        cases h2 : beforeSep ": I'm playing".toList (stripName name version) with
        | some a =>
          rw [h2] at h
          cases h
          exact .pachi hlen n1 (((beforeSep_spec _ _).1 _).1 h2)
        | none =>
          rw [h2] at h
          simp only at h
          cases h3 : splitWs (stripName name version) with
          | nil => rw [h3] at h; cases h
          | cons w ws =>
            rw [h3] at h
            cases h
            exact .word hlen n1 ((beforeSep_spec _ _).2.1 h2) ((splitWs_spec _).2 _ _ h3)
    · rename_i hlen
      cases h
      exact .whole (by omega)
  have herr : ∀ e, fixVersion name version = .error e → e = .indexError ∧ 64 < (stripName name version).length ∧
      ∀ c ∈ stripName name version, isSpace c = true := by
    intro e h
    unfold fixVersion at h
    simp only at h
    split at h
    · rename_i hlen
      split at h
      · cases h
      · split at h
        · cases h
        · cases h3 : splitWs (stripName name version) with
          | nil => rw [h3] at h; cases h; exact ⟨rfl, hlen, (splitWs_spec _).1.1 h3⟩
          | cons w ws => rw [h3] at h; cases h
    · cases h
  have hsound : ∀ clean, fixVersion name version = .ok clean → CleanVersion name version clean := by
    intro clean h
    rcases stripName_spec name version with ⟨n, h1, h2⟩ | ⟨h1, h2⟩
    · exact .inl ⟨n, _, h1, h2, htrim _ _ h rfl⟩
    · exact .inr ⟨h1, htrim _ _ h h2⟩
  refine ⟨fun clean => ⟨hsound clean, ?_⟩, herr⟩
  intro h
  have hv : Trimmed (stripName name version) clean := by
    rcases h with ⟨n, v, h1, h2, h3⟩ | ⟨h1, h2⟩
    · rcases stripName_spec name version with ⟨n', k1, k2⟩ | ⟨k1, _⟩
      · rw [h1] at k1
        cases k1
        rw [afterName_unique k2 h2]
        exact h3
      · exact absurd h2 (k1 n v h1)
    · rcases stripName_spec name version with ⟨n', k1, k2⟩ | ⟨_, k2⟩
      · exact absurd k2 (h1 _ _ k1)
      · rw [k2]; exact h2
  cases hf : fixVersion name version with
  | ok c => rw [trimmed_unique hv (htrim _ c hf rfl)]
  | error e =>
    exfalso
    obtain ⟨_, hlen, hsp⟩ := herr e hf
    have hnb : ∀ sep : Str, (∃ c ∈ sep, isSpace c = false) → ∀ a, ¬ Before sep (stripName name version) a := by
      rintro sep ⟨c, hc, hcs⟩ a ⟨⟨r, hr⟩, _⟩
      have := hsp c (by rw [hr]; simp [hc])
      rw [this] at hcs
      cases hcs
    cases hv with
    | whole h => omega
    | mogo _ h => exact hnb _ ⟨'.', by decide, by decide⟩ _ h
    | pachi _ _ h => exact hnb _ ⟨':', by decide, by decide⟩ _ h
    | word _ _ _ h =>
      obtain ⟨c, hc, hcs⟩ := firstWord_nonblank h
      rw [hsp c hc] at hcs
      cases hcs

/-! ### C68 -/

theorem utf8_prefix {a b : Str} (h : utf8Valid (a ++ b) = true) (hb : ∀ c, b.head? = some c → c.toNat < 128) : utf8Valid a = true := by
  cases b with
  | nil => simpa using h
  | cons c b =>
    rw [utf8Valid_append (hb c rfl) b _ a (Nat.le_refl _), Bool.and_eq_true] at h
    exact h.1

theorem isSpace_lt {c : Char} (h : isSpace c = true) : c.toNat < 128 := by
  unfold isSpace at h
  simp only [Bool.or_eq_true, beq_iff_eq, decide_eq_true_eq] at h
  by_contra hc
  have : ∀ d : Char, d.toNat < 128 → c ≠ d := fun d hd e => hc (e ▸ hd)
  simp_all
  omega

theorem space_valid {ws : Str} (h : ∀ c ∈ ws, isSpace c = true) : utf8Valid ws = true :=
  Sgf.utf8Valid_of_ascii (fun c hc => isSpace_lt (h c hc))

theorem trimmed_utf8 {v a : Str} (h : Trimmed v a) (hv : utf8Valid v = true) : utf8Valid a = true := by
  have hb : ∀ {sep a : Str}, Before sep v a → sep ≠ [] → (∀ c, sep.head? = some c → c.toNat < 128) → utf8Valid a = true := by
    rintro sep a ⟨⟨r, hr⟩, _⟩ hne hs
    rw [hr, List.append_assoc] at hv
    refine utf8_prefix hv ?_
    cases sep with
    | nil => exact absurd rfl hne
    | cons c sep => exact hs
  cases h with
  | whole => exact hv
  | mogo _ h => exact hb h (by decide) (by decide)
  | pachi _ _ h => exact hb h (by decide) (by decide)
  | word _ _ _ h =>
    obtain ⟨ws, r, h1, h2, _, _, h5⟩ := h
    rw [h1, List.append_assoc] at hv
    exact utf8_prefix (utf8Valid_cancel _ ws _ (Nat.le_refl _) (space_valid h2) hv) (fun c hc => isSpace_lt (h5 c hc))

theorem cleanVersion_utf8 {name : Option Str} {version clean : Str} (h : CleanVersion name version clean) (hn : ∀ n, name = some n → utf8Valid n = true)
    (hv : utf8Valid version = true) : utf8Valid clean = true := by
  rcases h with ⟨n, v, h1, ⟨p, ws, k1, k2, k3, _⟩, h3⟩ | ⟨_, h2⟩
  · refine trimmed_utf8 h3 ?_
    have hp : utf8Valid p = true := by
      rw [← utf8Valid_lower _ p (Nat.le_refl _), k2, utf8Valid_lower _ n (Nat.le_refl _)]
      exact hn n h1
    rw [k1, List.append_assoc] at hv
    exact utf8Valid_cancel _ ws _ (Nat.le_refl _) (space_valid k3) (utf8Valid_cancel _ p _ (Nat.le_refl _) hp hv)
  · exact trimmed_utf8 h2 hv

theorem cleanVersion_infix {name : Option Str} {version clean : Str} (h : CleanVersion name version clean) : clean <:+: version := by
  have ht : ∀ {v a : Str}, Trimmed v a → a <:+: v := by
    intro v a h
    cases h with
    | whole => exact List.infix_rfl
    | mogo _ h => obtain ⟨⟨r, hr⟩, _⟩ := h; exact ⟨[], ". Please read http:".toList ++ r, by rw [hr]; simp only [List.nil_append, List.append_assoc]⟩
    | pachi _ _ h => obtain ⟨⟨r, hr⟩, _⟩ := h; exact ⟨[], ": I'm playing".toList ++ r, by rw [hr]; simp only [List.nil_append, List.append_assoc]⟩
    | word _ _ _ h => obtain ⟨ws, r, h1, _⟩ := h; exact ⟨ws, r, h1.symm⟩
  rcases h with ⟨n, v, h1, ⟨p, ws, k1, k2, k3, _⟩, h3⟩ | ⟨_, h2⟩
  · exact (ht h3).trans ⟨p ++ ws, [], by rw [k1]; simp⟩
  · exact ht h2

/-- The texts an Engine_description is made from, as attributes: None for a missing or empty response; the response itself if it's UTF-8;
never the empty string. -/
def TextOf (raw attr : Option Str) : Prop :=
  (attr = none ↔ raw.getD [] = []) ∧ (∀ s, raw = some s → s ≠ [] → utf8Valid s = true → attr = some s) ∧
  (∀ t, attr = some t → utf8Valid t = true ∧ t ≠ [])

/-- What is used of the replacement of ill-formed UTF-8 (utils.py:64-66): the result is UTF-8, and isn't empty; and if it ends in whitespace, so
did the text. -/
structure Replaces (replaceBad : Str → Str) : Prop where
  valid : ∀ s, utf8Valid s = false → utf8Valid (replaceBad s) = true
  nonempty : ∀ s, utf8Valid s = false → replaceBad s ≠ []
  last : ∀ s c, utf8Valid s = false → (replaceBad s).getLast? = some c → isSpace c = true → s.getLast? = some c

theorem sanitised_text {replaceBad : Str → Str} (hr : Replaces replaceBad) (raw : Option Str) : TextOf raw (sanitised replaceBad raw) := by
  match raw with
  | none => exact ⟨by simp [sanitised], by simp, by simp [sanitised]⟩
  | some [] => exact ⟨by simp [sanitised], by simp, by simp [sanitised]⟩
  | some (c :: s) =>
    refine ⟨by simp [sanitised], ?_, ?_⟩
    · rintro t h _ hv
      cases h
      simp [sanitised, sanitiseUtf8, hv]
    · intro t h
      simp only [sanitised, Option.some.injEq] at h
      rw [← h]
      unfold sanitiseUtf8
      split
      · rename_i hv; exact ⟨hv, by simp⟩
      · rename_i hv
        have hv' : utf8Valid (c :: s) = false := by simpa using hv
        exact ⟨hr.valid _ hv', hr.nonempty _ hv'⟩

/-- C68: an Engine_description can be made from any responses which don't end in whitespace (those of a Linebased_gtp_channel don't, as
C60 says); all its texts are UTF-8; `name`, `version` and `description` are the responses (None if they were missing or empty); and
`clean_version` is the version without the engine's name and without any usage instructions. -/
theorem C68_attributes (replaceBad : Str → Str) (hr : Replaces replaceBad) (rawName rawVersion rawDescription : Option Str) :
    (∀ d, EngineDesc.make replaceBad rawName rawVersion rawDescription = .ok d →
      d.rawName = rawName ∧ d.rawVersion = rawVersion ∧ TextOf rawName d.name ∧ TextOf rawVersion d.version ∧ TextOf rawDescription d.description ∧
      (d.cleanVersion = none ↔ d.version = none) ∧
      (∀ v c, d.version = some v → (d.cleanVersion = some c ↔ CleanVersion d.name v c)) ∧
      (∀ c, d.cleanVersion = some c → utf8Valid c = true ∧ ∃ v, d.version = some v ∧ c <:+: v)) ∧
    (∀ e, EngineDesc.make replaceBad rawName rawVersion rawDescription = .error e → e = .indexError ∧
      ∃ v c, rawVersion = some v ∧ v.getLast? = some c ∧ isSpace c = true) := by
  have hn := sanitised_text hr rawName
  have hv := sanitised_text hr rawVersion
  have hd := sanitised_text hr rawDescription
  unfold EngineDesc.make
  simp only
  cases hs : sanitised replaceBad rawVersion with
  | none =>
    rw [hs] at hv
    refine ⟨?_, (fun _ h => nomatch h)⟩
    rintro d ⟨⟩
    exact ⟨rfl, rfl, hn, hv, hd, by simp, by simp, by simp⟩
  | some v =>
    rw [hs] at hv
    simp only
    obtain ⟨h1, h2⟩ := fixVersion_spec (sanitised replaceBad rawName) v
    cases hf : fixVersion (sanitised replaceBad rawName) v with
    | ok clean =>
      refine ⟨?_, (fun _ h => nomatch h)⟩
      rintro d ⟨⟩
      have hc := (h1 clean).1 hf
      refine ⟨rfl, rfl, hn, hv, hd, by simp, ?_, ?_⟩
      · rintro v' c ⟨⟩
        simp only [Option.some.injEq]
        rw [← h1, hf]
        simp
      · rintro c ⟨⟩
        exact ⟨cleanVersion_utf8 hc (fun n h => (hn.2.2 n h).1) (hv.2.2 v rfl).1, v, rfl, cleanVersion_infix hc⟩
    | error e =>
      refine ⟨(fun _ h => nomatch h), ?_⟩
      rintro e' ⟨⟩
      obtain ⟨k1, k2, k3⟩ := h2 e hf
      refine ⟨k1, ?_⟩
      have hsuf : stripName (sanitised replaceBad rawName) v <:+ v := by
        rcases stripName_spec (sanitised replaceBad rawName) v with ⟨n, _, p, ws, a1, _⟩ | ⟨_, a2⟩
        · exact ⟨p ++ ws, a1.symm⟩
        · rw [a2]
      have hne : stripName (sanitised replaceBad rawName) v ≠ [] := by intro h; rw [h] at k2; simp at k2
      obtain ⟨x, hx⟩ := hsuf
      have hlast : v.getLast? = some ((stripName (sanitised replaceBad rawName) v).getLast hne) := by
        generalize stripName (sanitised replaceBad rawName) v = z at *
        rw [← hx, List.getLast?_append, List.getLast?_eq_some_getLast hne]; rfl
      have hsp := k3 _ (List.getLast_mem hne)
      match rawVersion, hs with
      | some (c :: s), hs =>
        simp only [sanitised, Option.some.injEq] at hs
        unfold sanitiseUtf8 at hs
        split at hs
        · exact ⟨_, _, rfl, by rw [hs]; exact hlast, hsp⟩
        · rename_i hbad
          exact ⟨_, _, rfl, hr.last _ _ (by simpa using hbad) (by rw [hs]; exact hlast) hsp, hsp⟩

/-- C68: the descriptions: the short one is the name, with the cleaned-up version if that's no more than 32 characters; it's None exactly
if there's no name.  The long one is the description, if there is one. Both are UTF-8. -/
theorem C68_descriptions (replaceBad : Str → Str) (hr : Replaces replaceBad) (rawName rawVersion rawDescription : Option Str) (d : EngineDesc)
    (h : EngineDesc.make replaceBad rawName rawVersion rawDescription = .ok d) :
    (d.short = none ↔ d.name = none) ∧
    (∀ n, d.name = some n → (∀ v, d.cleanVersion = some v → v.length ≤ 32 → d.short = some (n ++ ':' :: v)) ∧
      ((∀ v, d.cleanVersion = some v → 32 < v.length) → d.short = some n)) ∧
    (d.long = none ↔ d.name = none ∧ d.version = none ∧ d.description = none) ∧
    (∀ s, d.description = some s → d.long = some s) ∧
    (d.description = none → d.long =
      (if d.name = none then d.cleanVersion.map ("version ".toList ++ ·) else if d.cleanVersion = none then d.name else
        some (d.name.getD [] ++ ':' :: d.cleanVersion.getD []))) ∧
    (∀ s, d.short = some s ∨ d.long = some s → utf8Valid s = true) ∧
    (∀ s, d.short = some s → s ≠ []) := by
  obtain ⟨_, _, hn, hv, hd, hcn, _, hcl⟩ := (C68_attributes replaceBad hr rawName rawVersion rawDescription).1 d h
  have hcolon : ∀ a b : Str, utf8Valid a = true → utf8Valid b = true → utf8Valid (a ++ ':' :: b) = true := by
    intro a b ha hb
    rw [utf8Valid_append (by decide) b _ a (Nat.le_refl _), ha, hb]; rfl
  have hver : ∀ b : Str, utf8Valid b = true → utf8Valid ("version ".toList ++ b) = true :=
    fun b hb => utf8Valid_concat _ _ b (Nat.le_refl _) (by decide +kernel) hb
  have hcap : ":".toList = [':'] := rfl
  cases hdn : d.name with
  | none =>
    rw [hdn] at hn
    cases hdc : d.cleanVersion with
    | none =>
      have hvn := hcn.1 hdc
      cases hdd : d.description with
      | none => simp [EngineDesc.short, EngineDesc.long, hdn, hdc, hdd, hvn]
      | some t => simpa [EngineDesc.short, EngineDesc.long, hdn, hdc, hdd] using (hd.2.2 t hdd).1
    | some v =>
      have hvn : d.version ≠ none := fun h => by rw [hcn.2 h] at hdc; cases hdc
      cases hdd : d.description with
      | none => simpa [EngineDesc.short, EngineDesc.long, hdn, hdc, hdd, hvn] using hver v (hcl v hdc).1
      | some t => simpa [EngineDesc.short, EngineDesc.long, hdn, hdc, hdd] using (hd.2.2 t hdd).1
  | some n =>
    have hnv := (hn.2.2 n hdn).1
    have hne := (hn.2.2 n hdn).2
    cases hdc : d.cleanVersion with
    | none =>
      cases hdd : d.description with
      | none => simp [EngineDesc.short, EngineDesc.long, or_imp, forall_and, hdn, hdc, hdd, hnv, hne]
      | some t => simp [EngineDesc.short, EngineDesc.long, or_imp, forall_and, hdn, hdc, hdd, hnv, (hd.2.2 t hdd).1, hne]
    | some v =>
      have hvv := (hcl v hdc).1
      by_cases hl : v.length > 32
      · have hl' : ¬ v.length ≤ 32 := by omega
        cases hdd : d.description with
        | none => simp [EngineDesc.short, EngineDesc.long, or_imp, forall_and, hdn, hdc, hdd, hl, hl', hnv, hne, hcolon n v hnv hvv]
        | some t => simp [EngineDesc.short, EngineDesc.long, or_imp, forall_and, hdn, hdc, hdd, hl, hl', hnv, (hd.2.2 t hdd).1, hne]
      · have hl' : v.length ≤ 32 := by omega
        cases hdd : d.description with
        | none => simp [EngineDesc.short, EngineDesc.long, or_imp, forall_and, hdn, hdc, hdd, hl, hl', hnv, hcolon n v hnv hvv]
        | some t => simp [EngineDesc.short, EngineDesc.long, or_imp, forall_and, hdn, hdc, hdd, hl, hl', hnv, (hd.2.2 t hdd).1, hcolon n v hnv hvv]

variable {σ : Type}

/-- The controller (in the state `c`) sends the command, and the engine gives the response `r`; or a failure response, and `r` is None. -/
def Asked (C : Channel σ) (c : Ctl σ) (command : Str) (r : Option Str) (c' : Ctl σ) : Prop :=
  (∃ s, c.doCommand C command [] = (.ok s, c') ∧ r = some s) ∨ (∃ m g, c.doCommand C command [] = (.error (.badResponse m g), c') ∧ r = none)

theorem askOrNone_iff (C : Channel σ) (c : Ctl σ) (command : Str) (r : Option Str) (c' : Ctl σ) :
    c.askOrNone C command = (.ok r, c') ↔ Asked C c command r c' := by
  unfold Ctl.askOrNone Asked
  cases c.doCommand C command [] with
  | mk x y => cases x with
    | ok s => simp [and_comm, eq_comm]
    | error e => cases e <;> simp [eq_comm, and_comm]

/-- C68: the responses an Engine_description is made from are those to name, version and (if the engine knows it)
gomill-describe_engine, asked in that order; a failure response counts as None. -/
theorem C68_query (C : Channel σ) (c : Ctl σ) (n v d : Option Str) (c' : Ctl σ) :
    c.queryDescription C = (.ok (n, v, d), c') ↔
    ∃ c1 c2 c3 known, Asked C c "name".toList n c1 ∧ Asked C c1 "version".toList v c2 ∧
      c2.knownCommand C false "gomill-describe_engine".toList = (.ok known, c3) ∧
      (known = false ∧ d = none ∧ c' = c3 ∨ known = true ∧ Asked C c3 "gomill-describe_engine".toList d c') := by
  simp only [← askOrNone_iff]
  unfold Ctl.queryDescription
  constructor
  · intro h
    cases h1 : c.askOrNone C "name".toList with
    | mk x c1 =>
      rw [h1] at h
      cases x with
      | error e => cases h
      | ok n' =>
        simp only at h
        cases h2 : c1.askOrNone C "version".toList with
        | mk x c2 =>
          rw [h2] at h
          cases x with
          | error e => cases h
          | ok v' =>
            simp only at h
            cases h3 : c2.knownCommand C false "gomill-describe_engine".toList with
            | mk x c3 =>
              rw [h3] at h
              cases x with
              | error e => cases h
              | ok known =>
                cases known with
                | false =>
                  simp only [Prod.mk.injEq, Except.ok.injEq] at h
                  obtain ⟨⟨rfl, rfl, rfl⟩, rfl⟩ := h
                  exact ⟨c1, c2, c3, false, rfl, h2, h3, .inl ⟨rfl, rfl, rfl⟩⟩
                | true =>
                  simp only at h
                  cases h4 : c3.askOrNone C "gomill-describe_engine".toList with
                  | mk x c4 =>
                    rw [h4] at h
                    cases x with
                    | error e => cases h
                    | ok d' =>
                      simp only [Prod.mk.injEq, Except.ok.injEq] at h
                      obtain ⟨⟨rfl, rfl, rfl⟩, rfl⟩ := h
                      exact ⟨c1, c2, c3, true, rfl, h2, h3, .inr ⟨rfl, h4⟩⟩
  · rintro ⟨c1, c2, c3, known, h1, h2, h3, h4⟩
    rw [h1]
    simp only
    rw [h2]
    simp only
    rw [h3]
    rcases h4 with ⟨rfl, rfl, rfl⟩ | ⟨rfl, h4⟩
    · rfl
    · simp only
      rw [h4]

/-! ### witnesses -/

/-- C68: non-vacuity: some engines' versions. -/
theorem C68_witness :
    Replaces (fun _ => "?".toList) ∧
    (EngineDesc.make (fun _ => "?".toList) (some "GNU Go".toList) (some "3.8".toList) none).toOption.map (fun d => (d.short, d.long)) =
      some (some "GNU Go:3.8".toList, some "GNU Go:3.8".toList) ∧
    (EngineDesc.make (fun _ => "?".toList) (some "MoGo".toList)
      (some "MoGo release 3. Please read http://www.lri.fr/~gelly/MoGo.htm for more information.".toList) none).toOption.map EngineDesc.short =
      some (some "MoGo:release 3".toList) ∧
    (EngineDesc.make (fun _ => "?".toList) (some "Pachi UCT".toList)
      (some "8.99: I'm playing UCT. I'm losing if the score shown is less than fifty per cent.".toList) none).toOption.map EngineDesc.short =
      some (some "Pachi UCT:8.99".toList) ∧
    (EngineDesc.make (fun _ => "?".toList) (some []) (some "1".toList) none).toOption.map (fun d => (d.short, d.long)) =
      some (none, some "version 1".toList) := by
  refine ⟨⟨fun _ _ => by decide +kernel, fun _ _ => by decide, ?_⟩, by decide +kernel, by decide +kernel, by decide +kernel, by decide +kernel⟩
  intro s c _ h1 h2
  have : "?".toList.getLast? = some '?' := by decide
  rw [this] at h1
  cases h1
  exact absurd h2 (by decide)

/-- C68: the documentation says that the attributes are never empty strings, but `clean_version` can be: here, for an engine which gives its
name as its version; its short description ends with the colon. -/
theorem C68_empty_clean_version :
    (EngineDesc.make (fun _ => "?".toList) (some "Fuego".toList) (some "Fuego".toList) none).toOption.map (fun d => (d.cleanVersion, d.short)) =
      some (some [], some "Fuego:".toList) := by
  decide +kernel

end Gomill.Gtp
