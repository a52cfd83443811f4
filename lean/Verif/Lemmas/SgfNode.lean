import Mathlib.Tactic.NormNum
import Mathlib.Algebra.Order.Ring.Rat
import Mathlib.Data.Rat.Lemmas
import Verif.Props.SgfText
import Verif.Spec.SgfNode
/-
Facts about property maps as dicts and about the Presenter.
-/
namespace Gomill.Sgf

open Py

/-! ### Dicts -/

theorem find_eq_lookup (m : PropMap) (k : Str) : m.find k = lookup m k := by
  induction m with
  | nil => rfl
  | cons p m ih =>
    obtain ⟨a, v⟩ := p
    unfold PropMap.find at ih ⊢
    rw [List.find?_cons, lookup]
    by_cases h : a = k
    · simp [h]
    · simp only [h, decide_false, if_false]; exact ih

theorem has_iff (m : PropMap) (k : Str) : m.has k = true ↔ ∃ v, lookup m k = some v := by
  unfold PropMap.has
  rw [find_eq_lookup, Option.isSome_iff_exists]

theorem lookup_some_mem {m : PropMap} {k : Str} {v : List Raw} (h : lookup m k = some v) : (k, v) ∈ m := by
  induction m with
  | nil => simp [lookup] at h
  | cons p m ih =>
    obtain ⟨a, w⟩ := p
    rw [lookup] at h
    split at h
    · rename_i e; cases h; subst e; simp
    · exact List.mem_cons_of_mem _ (ih h)

theorem lookup_none_iff {m : PropMap} {k : Str} : lookup m k = none ↔ k ∉ m.map (·.1) := by
  induction m with
  | nil => simp [lookup]
  | cons p m ih =>
    obtain ⟨a, w⟩ := p
    rw [lookup]
    split
    · rename_i e; simp [e]
    · rename_i e
      rw [ih]
      simp only [List.map_cons, List.mem_cons, not_or]
      exact ⟨fun h => ⟨fun h' => e h'.symm, h⟩, fun h => h.2⟩

theorem lookup_append_single (m : PropMap) (a : Str) (w : List Raw) (k : Str) (h : lookup m a = none) :
    lookup (m ++ [(a, w)]) k = if k = a then some w else lookup m k := by
  induction m with
  | nil =>
    simp only [List.nil_append, lookup]
    by_cases e : a = k
    · simp [e]
    · have e' : k ≠ a := fun h => e h.symm
      simp [e, e']
  | cons p m ih =>
    obtain ⟨b, x⟩ := p
    have hb : b ≠ a := by rintro rfl; simp [lookup] at h
    rw [lookup, if_neg hb] at h
    rw [List.cons_append, lookup, lookup, ih h]
    by_cases e : b = k
    · subst e
      simp [hb]
    · simp [e]

theorem lookup_map_set (m : PropMap) (a : Str) (w : List Raw) (k : Str) :
    lookup (List.map (fun p => if p.1 = a then (a, w) else p) m) k =
      if k = a then (if (lookup m a).isSome then some w else none) else lookup m k := by
  induction m with
  | nil => simp [lookup]
  | cons p m ih =>
    obtain ⟨b, x⟩ := p
    rw [List.map_cons]
    by_cases hb : b = a
    · subst hb
      rw [if_pos rfl, lookup, lookup, ih]
      by_cases e : b = k
      · subst e; simp [lookup]
      · have e' : k ≠ b := fun h => e h.symm
        simp [e, e', lookup]
    · rw [if_neg hb, lookup, lookup, lookup, ih]
      by_cases e : b = k
      · subst e; simp [hb]
      · simp [e, hb]

theorem lookup_assign (m : PropMap) (a : Str) (w : List Raw) (k : Str) :
    lookup (m.assign a w) k = if k = a then some w else lookup m k := by
  unfold PropMap.assign
  split
  · rename_i h
    rw [has_iff] at h
    obtain ⟨v, hv⟩ := h
    rw [lookup_map_set, hv]
    simp
  · rename_i h
    rw [has_iff] at h
    refine lookup_append_single m a w k ?_
    cases hl : lookup m a with
    | none => rfl
    | some v => exact absurd ⟨v, hl⟩ h

theorem lookup_remove (m : PropMap) (a : Str) (k : Str) :
    lookup (m.remove a) k = if k = a then none else lookup m k := by
  unfold PropMap.remove
  induction m with
  | nil => simp [lookup]
  | cons p m ih =>
    obtain ⟨b, x⟩ := p
    rw [List.filter_cons]
    by_cases hb : b = a
    · subst hb
      simp only [ne_eq, not_true_eq_false, decide_false, Bool.false_eq_true, if_false]
      rw [ih, lookup]
      by_cases e : b = k
      · subst e; simp
      · have e' : k ≠ b := fun h => e h.symm
        simp [e, e', lookup]
    · simp only [ne_eq, hb, not_false_eq_true, decide_true, if_true]
      rw [lookup, lookup, ih]
      by_cases e : b = k
      · subst e; simp [hb]
      · simp [e]

theorem validMap_assign {m : PropMap} (h : ValidMap m) {a : Str} {w : List Raw} (ha : ValidIdent a) (hw : w ≠ [])
    (hv : ∀ v ∈ w, ValidValue v) : ValidMap (m.assign a w) := by
  unfold PropMap.assign
  split
  · constructor
    · have : (List.map (fun p => if p.1 = a then (a, w) else p) m).map (·.1) = m.map (·.1) := by
        rw [List.map_map]
        apply List.map_congr_left
        intro p _
        simp only [Function.comp_apply]
        split
        · rename_i e; exact e.symm
        · rfl
      rw [this]; exact h.keys
    all_goals
      intro p hp
      obtain ⟨q, hq, rfl⟩ := List.mem_map.1 hp
      split
    · exact ha
    · exact h.idents q hq
    · exact hw
    · exact h.nonempty q hq
    · exact hv
    · exact h.values q hq
  · rename_i hn
    have hnone : lookup m a = none := by
      cases hl : lookup m a with
      | none => rfl
      | some v => exact absurd ((has_iff m a).2 ⟨v, hl⟩) hn
    constructor
    · rw [List.map_append, List.nodup_append]
      refine ⟨h.keys, by simp, ?_⟩
      rintro x hx y hy rfl
      simp only [List.map_cons, List.map_nil, List.mem_cons, List.not_mem_nil, or_false] at hy
      subst hy
      exact lookup_none_iff.1 hnone hx
    all_goals
      intro p hp
      rcases List.mem_append.1 hp with hp | hp
    · exact h.idents p hp
    · simp only [List.mem_cons, List.not_mem_nil, or_false] at hp; subst hp; exact ha
    · exact h.nonempty p hp
    · simp only [List.mem_cons, List.not_mem_nil, or_false] at hp; subst hp; exact hw
    · exact h.values p hp
    · simp only [List.mem_cons, List.not_mem_nil, or_false] at hp; subst hp; exact hv

theorem validMap_remove {m : PropMap} (h : ValidMap m) (a : Str) : ValidMap (m.remove a) := by
  unfold PropMap.remove
  have hsub : ∀ p ∈ List.filter (fun p => decide (p.1 ≠ a)) m, p ∈ m := fun p hp => List.mem_of_mem_filter hp
  exact ⟨((List.filter_sublist (l := m)).map (·.1)).nodup h.keys, fun p hp => h.idents p (hsub p hp),
    fun p hp => h.nonempty p (hsub p hp), fun p hp => h.values p (hsub p hp)⟩

/-! ### Presenter -/

theorem mapM_error {β γ : Type} {f : β → Except Exc γ} {l : List β} (h : ∃ x ∈ l, ∃ e, f x = .error e) : ∃ e, l.mapM f = .error e := by
  induction l with
  | nil => simp at h
  | cons y l ih =>
    rw [List.mapM_cons]
    cases hy : f y with
    | error e => exact ⟨e, rfl⟩
    | ok z =>
      obtain ⟨x, hx, e, he⟩ := h
      rcases List.mem_cons.1 hx with rfl | hx
      · rw [hy] at he; cases he
      · obtain ⟨e', h'⟩ := ih ⟨x, hx, e, he⟩
        exact ⟨e', by rw [h']; rfl⟩

theorem mapM_ok_exists {β γ : Type} {f : β → Except Exc γ} {l : List β} (h : ∀ x ∈ l, ∃ y, f x = .ok y) : ∃ r, l.mapM f = .ok r ∧ r.length = l.length := by
  induction l with
  | nil => exact ⟨[], rfl, rfl⟩
  | cons y l ih =>
    rw [List.mapM_cons]
    obtain ⟨z, hz⟩ := h y (by simp)
    obtain ⟨r, hr, hl⟩ := ih (fun x hx => h x (List.mem_cons_of_mem _ hx))
    exact ⟨z :: r, by rw [hz, hr]; rfl, by simp [hl]⟩

theorem mapM_mem {β γ : Type} {f : β → Except Exc γ} : ∀ {l : List β} {r : List γ}, l.mapM f = .ok r → ∀ y ∈ r, ∃ x ∈ l, f x = .ok y := by
  intro l
  induction l with
  | nil =>
    intro r h
    simp only [List.mapM_nil, pure, Except.pure, Except.ok.injEq] at h
    subst h
    simp
  | cons x l ih =>
    intro r h
    rw [List.mapM_cons] at h
    cases hx : f x with
    | error e => rw [hx] at h; simp [bind, Except.bind] at h
    | ok z =>
      cases hl : l.mapM f with
      | error e => rw [hx, hl] at h; simp [bind, Except.bind] at h
      | ok r' =>
        rw [hx, hl] at h
        simp only [bind, Except.bind, pure, Except.pure, Except.ok.injEq] at h
        subst h
        intro y hy
        rcases List.mem_cons.1 hy with rfl | hy
        · exact ⟨x, by simp, hx⟩
        · obtain ⟨x', hx', h'⟩ := ih hl y hy
          exact ⟨x', List.mem_cons_of_mem _ hx', h'⟩

/-- What serialise_go_point accepts. -/
theorem serialiseGoPoint_iff {size : Int} (hs : 1 ≤ size) (hs' : size ≤ 25) (m : Option Pt) :
    (∃ s, serialiseGoPoint m size = .ok s) ↔ ∀ p, m = some p → OnBoard size p := by
  constructor
  · rintro ⟨s, h⟩ p rfl
    by_contra hn
    rw [C22_serialise_rejects size (some p) (Or.inr ⟨p, rfl, hn⟩)] at h
    cases h
  · intro h
    obtain ⟨s, h, _⟩ := C22_move_roundtrip size hs hs' m h
    exact ⟨s, h⟩

theorem not_ok_error {β : Type} {x : Except Exc β} (h : ¬ ∃ y, x = .ok y) : ∃ e, x = .error e := by
  cases x with
  | error e => exact ⟨e, rfl⟩
  | ok y => exact absurd ⟨y, rfl⟩ h

theorem serialisePoint_iff {size : Int} (hs : 1 ≤ size) (hs' : size ≤ 25) (p : Pt) :
    (∃ s, serialisePoint p size = .ok s) ↔ OnBoard size p := by
  unfold serialisePoint
  rw [serialiseGoPoint_iff hs hs']
  simp

theorem serialiseText_iff (P : Presenter) (s : Str) : (∃ r, serialiseText P.codec s = .ok r) ↔ Encodable P s := by
  unfold serialiseText Encodable
  cases P.codec.enc s with
  | none => simp [orValueError, bind, Except.bind]
  | some e => simp [orValueError, bind, Except.bind, pure, Except.pure]

theorem serialiseSimpletext_iff (P : Presenter) (s : Str) : (∃ r, serialiseSimpletext P.codec s = .ok r) ↔ Encodable P s :=
  serialiseText_iff P s

theorem bindOk_iff {β γ : Type} (x : Except Exc β) (f : β → γ) :
    (∃ y, (do let a ← x; return f a : Except Exc γ) = .ok y) ↔ ∃ a, x = .ok a := by
  cases x <;> simp [bind, Except.bind, pure, Except.pure]

theorem emptyList_iff (e : Bool) (x : Except Exc (List Raw)) :
    (∃ y, (do emptyList e (← x) : Except Exc (List Raw)) = .ok y) ↔ ∃ l, x = .ok l ∧ (l = [] → e = true) := by
  cases x with
  | error _ => simp [bind, Except.bind]
  | ok l =>
    simp only [bind, Except.bind, emptyList, Except.ok.injEq]
    by_cases hl : l = []
    · subst hl
      cases e <;> simp
    · simp [hl]

theorem mapM_iff {β γ : Type} (f : β → Except Exc γ) (l : List β) (Q : List γ → Prop) (hQ : ∀ r r' : List γ, r.length = r'.length → (Q r ↔ Q r')) :
    (∃ r, l.mapM f = .ok r ∧ Q r) ↔ (∀ x ∈ l, ∃ y, f x = .ok y) ∧ (∀ r : List γ, r.length = l.length → Q r) := by
  constructor
  · rintro ⟨r, h, hq⟩
    have hall : ∀ x ∈ l, ∃ y, f x = .ok y := by
      intro x hx
      by_contra hn
      obtain ⟨e, he⟩ := mapM_error ⟨x, hx, not_ok_error hn⟩
      rw [he] at h; cases h
    refine ⟨hall, ?_⟩
    obtain ⟨r', h', hl⟩ := mapM_ok_exists hall
    rw [h] at h'
    cases h'
    intro r'' hr
    exact (hQ r r'' (by omega)).1 hq
  · rintro ⟨h, hq⟩
    obtain ⟨r, h', hl⟩ := mapM_ok_exists h
    exact ⟨r, h', hq r hl⟩

theorem length_nil_iff {β γ : Type} (l : List β) (b : Prop) : (∀ r : List γ, r.length = l.length → (r = [] → b)) ↔ (l = [] → b) := by
  constructor
  · rintro h rfl
    exact h [] rfl rfl
  · rintro h r hl rfl
    exact h (List.length_eq_zero_iff.1 hl.symm)

/-- The values that `serialise_as_type` accepts. -/
theorem serialiseAs_iff (P : Presenter) (hs : 1 ≤ P.size) (hs' : P.size ≤ 25) (t : PType) (v : PVal) :
    (∃ l, P.serialiseAs t v = .ok l) ↔ Storable P t v := by
  have lq : ∀ {γ : Type} (b : Prop), ∀ r r' : List γ, r.length = r'.length → ((r = [] → b) ↔ (r' = [] → b)) := by
    intro γ b r r' h
    rw [← List.length_eq_zero_iff, ← List.length_eq_zero_iff, h]
  cases t <;> cases v <;> simp only [Presenter.serialiseAs, Storable]
  all_goals first
    | (simp; done)
    | skip
  · -- real
    rename_i f
    rw [bindOk_iff]
    cases f with
    | fin q =>
      simp only [serialiseReal]
      refine iff_of_true ?_ trivial
      split
      · exact ⟨_, rfl⟩
      · split <;> exact ⟨_, rfl⟩
    | inf b => simp [serialiseReal]
    | nan => simp [serialiseReal]
  · rw [bindOk_iff, serialiseSimpletext_iff]
  · rw [bindOk_iff, serialiseText_iff]
  · rw [bindOk_iff, serialisePoint_iff hs hs']
  · rw [bindOk_iff, serialiseGoPoint_iff hs hs']
  · -- point list
    rename_i e l
    rw [emptyList_iff]
    have : (∃ l_1, serialisePointList l P.size = .ok l_1 ∧ (l_1 = [] → e = true)) ↔
        ∃ r, l.mapM (fun p => serialisePoint p P.size) = .ok r ∧ (r = [] → e = true) := by
      unfold serialisePointList
      cases l.mapM (fun p => serialisePoint p P.size) with
      | error x => simp [bind, Except.bind]
      | ok r =>
        simp only [bind, Except.bind, pure, Except.pure, Except.ok.injEq, exists_eq_left']
        have : sortStrs r = [] ↔ r = [] := by
          rw [← List.length_eq_zero_iff, ← List.length_eq_zero_iff, (sortStrs_perm r).length_eq]
        rw [this]
    rw [this, mapM_iff _ _ _ (lq _), length_nil_iff]
    simp only [serialisePoint_iff hs hs']
  · -- AP
    rename_i v
    rw [bindOk_iff]
    unfold serialiseAP
    rw [← serialiseSimpletext_iff, ← serialiseSimpletext_iff]
    cases serialiseSimpletext P.codec v.1 <;> cases serialiseSimpletext P.codec v.2 <;>
      simp [bind, Except.bind, pure, Except.pure]
  · -- ARLN
    rename_i l
    rw [emptyList_iff]
    unfold serialiseARLN
    rw [mapM_iff _ _ _ (lq _), length_nil_iff]
    simp only [Bool.false_eq_true, imp_false]
    refine and_congr (forall_congr' (fun v => forall_congr' (fun _ => ?_))) Iff.rfl
    rw [← serialisePoint_iff hs hs', ← serialisePoint_iff hs hs']
    cases serialisePoint v.1 P.size <;> cases serialisePoint v.2 P.size <;> simp [bind, Except.bind, pure, Except.pure]
  · -- FG
    rename_i f
    rw [bindOk_iff]
    cases f with
    | none => simp [serialiseFG]
    | some v =>
      obtain ⟨flags, name⟩ := v
      simp only [serialiseFG]
      rw [bindOk_iff, serialiseSimpletext_iff]
      constructor
      · rintro h _ _ ⟨⟩; exact h
      · intro h; exact h _ _ rfl
  · -- LB
    rename_i l
    rw [emptyList_iff]
    unfold serialiseLB
    rw [mapM_iff _ _ _ (lq _), length_nil_iff]
    simp only [Bool.false_eq_true, imp_false]
    refine and_congr (forall_congr' (fun v => forall_congr' (fun _ => ?_))) Iff.rfl
    rw [← serialisePoint_iff hs hs', ← serialiseSimpletext_iff]
    cases serialisePoint v.1 P.size <;> cases serialiseSimpletext P.codec v.2 <;> simp [bind, Except.bind, pure, Except.pure]

/-! ### What is written can be read -/

theorem interpretPoint_nil (size : Int) : interpretPoint [] size = .error .valueError := rfl

theorem listValues_ok {l : List Raw} (h : l ≠ []) (h' : l ≠ [[]]) : listValues l = .ok l := by
  unfold listValues
  cases l with
  | nil => exact absurd rfl h
  | cons a l => simp only; rw [if_neg h']

theorem emptyList_ok {e : Bool} {x : Except Exc (List Raw)} {l : List Raw} (h : (do emptyList e (← x) : Except Exc (List Raw)) = .ok l) :
    ∃ r, x = .ok r ∧ ((r = [] ∧ e = true ∧ l = [[]]) ∨ (r ≠ [] ∧ l = r)) := by
  cases x with
  | error _ => simp [bind, Except.bind] at h
  | ok r =>
    refine ⟨r, rfl, ?_⟩
    simp only [bind, Except.bind, emptyList] at h
    by_cases hr : r = []
    · rw [if_pos hr] at h
      cases e with
      | true => simp only [if_true, Except.ok.injEq] at h; exact Or.inl ⟨hr, rfl, h.symm⟩
      | false => simp at h
    · rw [if_neg hr] at h
      simp only [Except.ok.injEq] at h
      exact Or.inr ⟨hr, h.symm⟩

theorem bindOk_eq {β γ : Type} {x : Except Exc β} {f : β → γ} {y : γ} (h : (do let a ← x; return f a : Except Exc γ) = .ok y) :
    ∃ a, x = .ok a ∧ y = f a := by
  cases x with
  | error _ => simp [bind, Except.bind] at h
  | ok a =>
    simp only [bind, Except.bind, pure, Except.pure, Except.ok.injEq] at h
    exact ⟨a, rfl, h.symm⟩

theorem forall2_imp {β γ : Type} {R S : β → γ → Prop} (h : ∀ a b, R a b → S a b) : ∀ {l : List β} {l' : List γ},
    List.Forall₂ R l l' → List.Forall₂ S l l'
  | _, _, .nil => .nil
  | _, _, .cons a b => .cons (h _ _ a) (forall2_imp h b)

theorem interpret_serialise (P : Presenter) (hs : 1 ≤ P.size) (hs' : P.size ≤ 25) (hC : AsciiCompatible P.codec)
    (isFloat : Rat → Prop) (hF : FloatsOK P.floats isFloat) (t : PType) (v : PVal) (hw : WellFormed isFloat v)
    (l : List Raw) (h : P.serialiseAs t v = .ok l) : ∃ v', P.interpretAs t l = .ok v' ∧ Reads t v v' := by
  have hstor := (serialiseAs_iff P hs hs' t v).1 ⟨l, h⟩
  cases t <;> cases v <;> simp only [Presenter.serialiseAs, Storable] at h hstor <;> try (exact False.elim hstor)
  all_goals try (cases h; exact ⟨.true_, rfl, trivial⟩)
  · -- number
    rename_i i
    cases h
    refine ⟨.num i, ?_, rfl⟩
    simp only [Presenter.interpretAs, singleValue, bind, Except.bind, pure, Except.pure, C22_simple_types.1]
  · -- real
    rename_i f
    obtain ⟨a, ha, rfl⟩ := bindOk_eq h
    cases f with
    | inf b => simp at hstor
    | nan => simp at hstor
    | fin q =>
      have hw : isFloat q := hw
      simp only [serialiseReal] at ha
      have hr : ∃ q', P.floats.read a = some (.fin q') ∧ q' = if -1/10000 < q ∧ q < 1/10000 then 0 else q := by
        split at ha
        · rename_i hd
          cases ha
          refine ⟨q, hF.int q hw hd, ?_⟩
          split
          · rename_i hq
            have hq' : (q.num : Rat) = q := Rat.den_eq_one_iff q |>.1 hd
            rw [← hq'] at hq ⊢
            have h1 : (-1 : Rat) < (q.num : Rat) := by
              refine lt_of_le_of_lt ?_ hq.1; norm_num
            have h2 : (q.num : Rat) < 1 := by
              refine lt_of_lt_of_le hq.2 ?_; norm_num
            have h3 : (-1 : Int) < q.num := by exact_mod_cast h1
            have h4 : q.num < 1 := by exact_mod_cast h2
            have : q.num = 0 := by omega
            rw [this]; rfl
          · rfl
        · rename_i hd
          have hsm := hF.small q hw hd
          split at ha
          · rename_i he
            cases ha
            refine ⟨0, ?_, by rw [if_pos (hsm.1 he)]⟩
            have := hF.int 0 hF.zero rfl
            exact this
          · rename_i he
            cases ha
            exact ⟨q, hF.repr q hw hd, by rw [if_neg (fun h => he (hsm.2 h))]⟩
      obtain ⟨q', h1, h2⟩ := hr
      refine ⟨.real (.fin q'), ?_, h2⟩
      simp only [Presenter.interpretAs, singleValue, bind, Except.bind, pure, Except.pure, interpretReal, h1]
  · -- double
    rename_i i
    cases h
    refine ⟨.num (if i = 2 then 2 else 1), ?_, rfl⟩
    simp only [Presenter.interpretAs, singleValue, bind, Except.bind, pure, Except.pure, serialiseDouble]
    split <;> rfl
  · -- colour
    rename_i c
    cases h
    refine ⟨.colour c, ?_, rfl⟩
    simp only [Presenter.interpretAs, singleValue, bind, Except.bind, pure, Except.pure, C22_simple_types.2.2]
  · -- simpletext
    rename_i s
    obtain ⟨a, ha, rfl⟩ := bindOk_eq h
    obtain ⟨_, t, ht, hn, _⟩ := C20_presenter P.codec hC s a hw ha
    refine ⟨.str t, ?_, hn⟩
    simp only [Presenter.interpretAs, singleValue, bind, Except.bind, pure, Except.pure, ht]
  · -- text
    rename_i s
    obtain ⟨a, ha, rfl⟩ := bindOk_eq h
    obtain ⟨_, t, ht, hn, _⟩ := C19_presenter P.codec hC s a hw ha
    refine ⟨.str t, ?_, hn⟩
    simp only [Presenter.interpretAs, singleValue, bind, Except.bind, pure, Except.pure, ht]
  · -- point
    rename_i p
    obtain ⟨a, ha, rfl⟩ := bindOk_eq h
    refine ⟨.point p, ?_, rfl⟩
    unfold serialisePoint at ha
    rw [serialiseGoPoint_pt hs hs' hstor] at ha
    cases ha
    simp only [Presenter.interpretAs, singleValue, bind, Except.bind, pure, Except.pure, goPoint_interp hs hs' hstor]
  · -- move
    rename_i m
    obtain ⟨a, ha, rfl⟩ := bindOk_eq h
    obtain ⟨b, hb, hb'⟩ := C22_move_roundtrip P.size hs hs' m hstor
    rw [ha] at hb
    cases hb
    refine ⟨.move m, ?_, rfl⟩
    simp only [Presenter.interpretAs, singleValue, bind, Except.bind, pure, Except.pure, hb']
  · -- point list
    rename_i e pts
    obtain ⟨r, hr, hcase⟩ := emptyList_ok h
    obtain ⟨values, h1, h2, res, h3, h4, h5⟩ := C22_point_list_roundtrip P.size hs hs' pts hstor.1
    rw [h1] at hr
    cases hr
    rcases hcase with ⟨rfl, _, rfl⟩ | ⟨hne, rfl⟩
    · have : pts = [] := List.length_eq_zero_iff.1 (by simpa using h2.symm)
      subst this
      exact ⟨.points [], rfl, by simp [Reads]⟩
    · refine ⟨.points res, ?_, h4, h5⟩
      have hne' : l ≠ [[]] := by
        rintro rfl
        simp [interpretPointList, pointListLoop, partition, interpretPoint_nil, bind, Except.bind] at h3
      simp only [Presenter.interpretAs, listValues_ok hne hne', bind, Except.bind, pure, Except.pure, h3]
  · -- AP
    rename_i v
    obtain ⟨a, ha, rfl⟩ := bindOk_eq h
    obtain ⟨_, n, w, h1, h2, h3, _⟩ := C21_AP P.codec hC v.1 v.2 a hw.1 hw.2 ha
    refine ⟨.pair (n, w), ?_, h2, h3⟩
    simp only [Presenter.interpretAs, singleValue, bind, Except.bind, pure, Except.pure, h1]
  · -- ARLN
    rename_i ls
    obtain ⟨r, hr, hcase⟩ := emptyList_ok h
    obtain ⟨l', h1, h2⟩ := C21_ARLN P.size hs hs' ls hstor.1
    rw [h1] at hr
    cases hr
    rcases hcase with ⟨_, he, _⟩ | ⟨hne, rfl⟩
    · cases he
    · refine ⟨.lines ls, ?_, rfl⟩
      have hne' : l ≠ [[]] := by
        rintro rfl
        simp [interpretARLN, parseCompose, splitCompose, interpretPoint_nil, bind, Except.bind] at h2
      simp only [Presenter.interpretAs, listValues_ok hne hne', bind, Except.bind, pure, Except.pure, h2]
  · -- FG
    rename_i f
    obtain ⟨a, ha, rfl⟩ := bindOk_eq h
    cases f with
    | none =>
      cases ha
      exact ⟨.figure none, rfl, rfl⟩
    | some v =>
      obtain ⟨flags, name⟩ := v
      obtain ⟨_, n, h1, h2, _⟩ := (C21_FG P.codec hC).2 flags name a (hw flags name rfl) ha
      refine ⟨.figure (some (flags, n)), ?_, n, rfl, h2⟩
      simp only [Presenter.interpretAs, singleValue, bind, Except.bind, pure, Except.pure, h1]
  · -- LB
    rename_i ls
    obtain ⟨r, hr, hcase⟩ := emptyList_ok h
    obtain ⟨_, vs', h2, h3⟩ := C21_LB P.codec hC P.size hs hs' ls (fun v hv => ⟨(hstor.1 v hv).1, hw v hv⟩) r hr
    rcases hcase with ⟨_, he, _⟩ | ⟨hne, rfl⟩
    · cases he
    · refine ⟨.labels vs', ?_, forall2_imp (fun v w h => ⟨h.1, h.2.1⟩) h3⟩
      have hne' : l ≠ [[]] := by
        rintro rfl
        simp [interpretLB, parseCompose, splitCompose, interpretPoint_nil, bind, Except.bind] at h2
      simp only [Presenter.interpretAs, listValues_ok hne hne', bind, Except.bind, pure, Except.pure, h2]

/-! ### What is written is valid -/

theorem getItem_mem {β : Type} {l : List β} {i : Int} {x : β} (h : getItem l i = .ok x) : x ∈ l := by
  unfold getItem at h
  split at h
  · cases h
  · split at h
    · rename_i y hy
      cases h
      exact List.mem_of_getElem? hy
    · cases h

theorem serialiseGoPoint_chars {size : Int} {m : Option Pt} {s : Str} (h : serialiseGoPoint m size = .ok s) :
    ∀ c ∈ s, c ≠ '\\' ∧ c ≠ ']' := by
  have hl : ∀ c ∈ pointLetters, c ≠ '\\' ∧ c ≠ ']' := by decide
  unfold serialiseGoPoint at h
  split at h
  · cases h
  · cases m with
    | none =>
      simp only at h
      split at h
      · cases h; decide
      · cases h; simp
    | some p =>
      obtain ⟨row, col⟩ := p
      simp only at h
      split at h
      · cases h
      · cases h1 : getItem pointLetters col with
        | error e => rw [h1] at h; simp [bind, Except.bind] at h
        | ok a =>
          cases h2 : getItem pointLetters (size - row - 1) with
          | error e => rw [h1, h2] at h; simp [bind, Except.bind] at h
          | ok b =>
            rw [h1, h2] at h
            simp only [bind, Except.bind, pure, Except.pure, Except.ok.injEq] at h
            subst h
            intro c hc
            simp only [List.mem_cons, List.not_mem_nil, or_false] at hc
            rcases hc with rfl | rfl
            · exact hl _ (getItem_mem h1)
            · exact hl _ (getItem_mem h2)

theorem serialiseGoPoint_valid {size : Int} {m : Option Pt} {s : Str} (h : serialiseGoPoint m size = .ok s) : ValidValue s :=
  validValue_plain (serialiseGoPoint_chars h)

theorem strInt_valid (i : Int) : ValidValue (strInt i) := by
  apply validValue_plain
  intro c hc
  unfold strInt at hc
  split at hc
  · rcases List.mem_cons.1 hc with rfl | hc
    · decide
    · exact ⟨ne_of_isDigit (toDigits_isDigit hc) (by decide), ne_of_isDigit (toDigits_isDigit hc) (by decide)⟩
  · exact ⟨ne_of_isDigit (toDigits_isDigit hc) (by decide), ne_of_isDigit (toDigits_isDigit hc) (by decide)⟩

theorem serialiseSimpletext_valid {C : Codec} {s r : Str} (h : serialiseSimpletext C s = .ok r) : ValidValue r := by
  obtain ⟨e, _, rfl⟩ := serialise_escape h
  exact (C19_valid e).1

theorem serialiseAs_valid (P : Presenter) (hF : ∀ q, ∀ c ∈ P.floats.repr q, c ≠ ']' ∧ c ≠ '\\') (t : PType) (v : PVal)
    (l : List Raw) (h : P.serialiseAs t v = .ok l) : l ≠ [] ∧ ∀ s ∈ l, ValidValue s := by
  have one : ∀ {x : Except Exc Raw}, (do let a ← x; return [a] : Except Exc (List Raw)) = .ok l →
      (∀ a, x = .ok a → ValidValue a) → l ≠ [] ∧ ∀ s ∈ l, ValidValue s := by
    intro x h hx
    obtain ⟨a, ha, rfl⟩ := bindOk_eq h
    refine ⟨by simp, ?_⟩
    intro s hs
    simp only [List.mem_cons, List.not_mem_nil, or_false] at hs
    subst hs
    exact hx _ ha
  have pure1 : ∀ a : Raw, ValidValue a → (.ok [a] : Except Exc (List Raw)) = .ok l → l ≠ [] ∧ ∀ s ∈ l, ValidValue s := by
    intro a ha h
    cases h
    refine ⟨by simp, ?_⟩
    intro s hs
    simp only [List.mem_cons, List.not_mem_nil, or_false] at hs
    subst hs
    exact ha
  have many : ∀ {x : Except Exc (List Raw)} {e : Bool}, (do emptyList e (← x) : Except Exc (List Raw)) = .ok l →
      (∀ r, x = .ok r → ∀ s ∈ r, ValidValue s) → l ≠ [] ∧ ∀ s ∈ l, ValidValue s := by
    intro x e h hx
    obtain ⟨r, hr, ⟨_, _, rfl⟩ | ⟨hne, rfl⟩⟩ := emptyList_ok h
    · refine ⟨by simp, ?_⟩
      intro s hs
      simp only [List.mem_cons, List.not_mem_nil, or_false] at hs
      subst hs
      exact .nil
    · exact ⟨hne, hx _ hr⟩
  cases t <;> cases v <;> simp only [Presenter.serialiseAs] at h <;> first
    | (exact pure1 [] .nil h)
    | (cases h; done)
    | skip
  · exact pure1 _ (strInt_valid _) h
  · refine one h ?_
    intro a ha
    rename_i f
    cases f with
    | inf b => cases ha
    | nan => cases ha
    | fin q =>
      simp only [serialiseReal] at ha
      split at ha
      · cases ha; exact strInt_valid _
      · split at ha
        · cases ha; exact .plain (by decide) (by decide) .nil
        · cases ha; exact validValue_plain (fun c hc => ⟨(hF q c hc).2, (hF q c hc).1⟩)
  · refine pure1 _ ?_ h
    unfold serialiseDouble
    split <;> exact .plain (by decide) (by decide) .nil
  · refine pure1 _ ?_ h
    rename_i c
    cases c <;> exact .plain (by decide) (by decide) .nil
  · exact one h (fun a ha => serialiseSimpletext_valid ha)
  · exact one h (fun a ha => serialiseSimpletext_valid ha)
  · exact one h (fun a ha => serialiseGoPoint_valid ha)
  · exact one h (fun a ha => serialiseGoPoint_valid ha)
  · refine many h ?_
    intro r hr s hs
    obtain ⟨l', hl', rfl⟩ := bindOk_eq hr
    have := (sortStrs_perm l').mem_iff.1 hs
    obtain ⟨p, _, hp⟩ := mapM_mem hl' s this
    exact serialiseGoPoint_valid hp
  · refine one h ?_
    intro a ha
    rename_i v
    unfold serialiseAP at ha
    cases h1 : serialiseSimpletext P.codec v.1 with
    | error e => rw [h1] at ha; simp [bind, Except.bind] at ha
    | ok x =>
      cases h2 : serialiseSimpletext P.codec v.2 with
      | error e => rw [h1, h2] at ha; simp [bind, Except.bind] at ha
      | ok y =>
        rw [h1, h2] at ha
        simp only [bind, Except.bind, pure, Except.pure, Except.ok.injEq] at ha
        subst ha
        obtain ⟨e, _, rfl⟩ := serialise_escape h1
        unfold compose
        rw [replaceColon_escapeText, List.append_assoc]
        exact validValue_append (validValue_escSet rfl rfl _) (.plain (by decide) (by decide) (serialiseSimpletext_valid h2))
  · refine many h ?_
    intro r hr s hs
    obtain ⟨v, _, hv⟩ := mapM_mem hr s hs
    cases h1 : serialisePoint v.1 P.size with
    | error e => rw [h1] at hv; simp [bind, Except.bind] at hv
    | ok x =>
      cases h2 : serialisePoint v.2 P.size with
      | error e => rw [h1, h2] at hv; simp [bind, Except.bind] at hv
      | ok y =>
        rw [h1, h2] at hv
        simp only [bind, Except.bind, pure, Except.pure, Except.ok.injEq] at hv
        subst hv
        rw [List.append_assoc]
        exact validValue_append (serialiseGoPoint_valid h1) (.plain (by decide) (by decide) (serialiseGoPoint_valid h2))
  · refine one h ?_
    intro a ha
    rename_i f
    cases f with
    | none => cases ha; exact .nil
    | some v =>
      obtain ⟨flags, name⟩ := v
      obtain ⟨y, h2, rfl⟩ := bindOk_eq ha
      rw [List.append_assoc]
      exact validValue_append (strInt_valid _) (.plain (by decide) (by decide) (serialiseSimpletext_valid h2))
  · refine many h ?_
    intro r hr s hs
    obtain ⟨v, _, hv⟩ := mapM_mem hr s hs
    cases h1 : serialisePoint v.1 P.size with
    | error e => rw [h1] at hv; simp [bind, Except.bind] at hv
    | ok x =>
      cases h2 : serialiseSimpletext P.codec v.2 with
      | error e => rw [h1, h2] at hv; simp [bind, Except.bind] at hv
      | ok y =>
        rw [h1, h2] at hv
        simp only [bind, Except.bind, pure, Except.pure, Except.ok.injEq] at hv
        subst hv
        rw [List.append_assoc]
        exact validValue_append (serialiseGoPoint_valid h1) (.plain (by decide) (by decide) (serialiseSimpletext_valid h2))

end Gomill.Sgf
