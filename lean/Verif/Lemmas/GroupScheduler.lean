import Verif.Lemmas.Schedulers
namespace Gomill.Sched
open Py SchedSpec
variable {κ : Type} [DecidableEq κ]

def Group.codes (g : Group κ) : List κ := List.map GEntry.code g

theorem Group.find_some {g : Group κ} {c : κ} {e : GEntry κ} (h : g.find c = some e) :
    e ∈ g ∧ e.code = c := by
  unfold Group.find at h
  exact ⟨List.mem_of_find?_eq_some h, by simpa using List.find?_some h⟩

theorem Group.find_none {g : Group κ} {c : κ} : g.find c = none ↔ c ∉ g.codes := by
  unfold Group.find Group.codes
  simp [List.find?_eq_none]

theorem Group.find_of_mem {g : Group κ} (hn : g.codes.Nodup) {e : GEntry κ} (he : e ∈ g) :
    g.find e.code = some e := by
  induction g with
  | nil => simp at he
  | cons a g ih =>
    have hn' := List.nodup_cons.1 (show (a.code :: Group.codes g).Nodup from hn)
    unfold Group.find
    rw [List.find?_cons]
    rcases List.mem_cons.1 he with rfl | he'
    · simp
    · have hne : a.code ≠ e.code := by
        intro hc; exact hn'.1 (hc ▸ List.mem_map_of_mem (f := GEntry.code) he')
      simp only [hne, decide_false]
      exact ih hn'.2 he'

/-- Entries agree when codes agree. -/
theorem Group.eq_of_code {g : Group κ} (hn : g.codes.Nodup) {e e' : GEntry κ}
    (he : e ∈ g) (he' : e' ∈ g) (hc : e.code = e'.code) : e = e' := by
  have h1 := Group.find_of_mem hn he
  have h2 := Group.find_of_mem hn he'
  rw [hc, h2] at h1
  exact (Option.some.inj h1).symm

theorem GEntry.before_trans_ok (best e : GEntry κ) :
    ∀ x : GEntry κ, (x = best ∨ x = e) →
      let m := if e.before best then e else best
      ¬ x.before m = true := by
  intro x hx
  simp only
  unfold GEntry.before
  rcases hx with rfl | rfl
  all_goals split
  all_goals simp_all
  all_goals omega

theorem GEntry.before_lin {a b c : GEntry κ} (h1 : ¬ b.before a = true) (h2 : ¬ c.before b = true) :
    ¬ c.before a = true := by
  unfold GEntry.before at *
  simp only [Bool.or_eq_true, decide_eq_true_eq, Bool.and_eq_true, beq_iff_eq] at *
  omega

theorem foldl_min_spec (es : List (GEntry κ)) (b : GEntry κ) :
    let m := es.foldl (fun best e => if e.before best then e else best) b
    m ∈ b :: es ∧ ∀ x ∈ b :: es, ¬ x.before m = true := by
  induction es generalizing b with
  | nil => simp [GEntry.before]
  | cons e es ih =>
    have hb := GEntry.before_trans_ok b e
    simp only [List.foldl_cons]
    obtain ⟨h1, h2⟩ := ih (if e.before b then e else b)
    refine ⟨?_, ?_⟩
    · rcases List.mem_cons.1 h1 with h | h
      · rw [h]; split <;> simp
      · simp [h]
    · intro x hx
      have hm := h2 _ (List.mem_cons_self)
      rcases List.mem_cons.1 hx with rfl | hx
      · exact GEntry.before_lin hm (hb x (Or.inl rfl))
      · rcases List.mem_cons.1 hx with rfl | hx
        · exact GEntry.before_lin hm (hb x (Or.inr rfl))
        · exact h2 x (List.mem_cons_of_mem _ hx)

theorem minAvail_none {l : List (GEntry κ)} : Group.minAvail l = none ↔ l = [] := by
  cases l <;> simp [Group.minAvail]

theorem minAvail_some {l : List (GEntry κ)} {e : GEntry κ} (h : Group.minAvail l = some e) :
    e ∈ l ∧ ∀ x ∈ l, ¬ x.before e = true := by
  cases l with
  | nil => simp [Group.minAvail] at h
  | cons b es =>
    simp only [Group.minAvail, Option.some.injEq] at h
    subst h
    exact foldl_min_spec es b

theorem GEntry.available_iff (e : GEntry κ) :
    e.available = true ↔ ∀ l, e.limit = some l → e.alloc.issued < l := by
  unfold GEntry.available
  cases e.limit <;> simp

theorem codes_setAlloc (g : Group κ) (c : κ) (a : Simple) : (g.setAlloc c a).codes = g.codes := by
  unfold Group.setAlloc Group.codes
  rw [List.map_map]
  apply List.map_congr_left
  intro e _
  simp only [Function.comp]
  split <;> rfl

theorem mem_setAlloc {g : Group κ} {c : κ} {a : Simple} {e : GEntry κ} :
    e ∈ g.setAlloc c a ↔ (∃ e0 ∈ g, e0.code = c ∧ e = { e0 with alloc := a }) ∨ (e ∈ g ∧ e.code ≠ c) := by
  unfold Group.setAlloc
  rw [List.mem_map]
  constructor
  · rintro ⟨e0, h0, rfl⟩
    by_cases hc : e0.code = c
    · left; exact ⟨e0, h0, hc, by simp [hc]⟩
    · right; simp [hc, h0]
  · rintro (⟨e0, h0, hc, rfl⟩ | ⟨h0, hc⟩)
    · exact ⟨e0, h0, by simp [hc]⟩
    · exact ⟨e, h0, by simp [hc]⟩

/-! ### set_groups -/

theorem codes_map_replace (g : Group κ) (e : GEntry κ) :
    Group.codes (g.map (fun e' => if e'.code = e.code then e else e')) = g.codes := by
  unfold Group.codes
  rw [List.map_map]
  apply List.map_congr_left
  intro x _
  simp only [Function.comp]
  split
  · rename_i h; exact h.symm
  · rfl

theorem store_codes (g : Group κ) (e : GEntry κ) :
    (Group.store g e).codes = if e.code ∈ g.codes then g.codes else g.codes ++ [e.code] := by
  unfold Group.store
  cases hf : g.find e.code with
  | none => simp [Group.find_none.1 hf]; simp [Group.codes]
  | some x =>
    have : e.code ∈ g.codes := by
      obtain ⟨h1, h2⟩ := Group.find_some hf
      rw [← h2]; exact List.mem_map_of_mem (f := GEntry.code) h1
    simp only [Option.isSome_some, if_true, this]
    exact codes_map_replace g e

theorem mem_store {g : Group κ} {e x : GEntry κ} (h : x ∈ Group.store g e) :
    x = e ∨ (x ∈ g ∧ x.code ≠ e.code) := by
  unfold Group.store at h
  split at h
  · rw [List.mem_map] at h
    obtain ⟨y, hy, rfl⟩ := h
    by_cases hc : y.code = e.code
    · simp [hc]
    · simp [hc, hy]
  · rename_i hf
    simp only [Bool.not_eq_true, Option.isSome_eq_false_iff, Option.isNone_iff_eq_none] at hf
    have := Group.find_none.1 hf
    rcases List.mem_append.1 h with h | h
    · right
      refine ⟨h, ?_⟩
      intro hc; apply this; rw [← hc]; exact List.mem_map_of_mem (f := GEntry.code) h
    · left; simpa using h

structure SGInv (old : Group κ) (n : Nat) (seen : List κ) (acc : Group κ) : Prop where
  nodup : acc.codes.Nodup
  codes : ∀ c, c ∈ acc.codes ↔ c ∈ seen
  alloc : ∀ e ∈ acc, e.alloc = allocOf old e.code
  prio : ∀ e ∈ acc, e.priority < n
  inj : ∀ e ∈ acc, ∀ e' ∈ acc, e.priority = e'.priority → e.code = e'.code

theorem sginv_aux (old : Group κ) (specs : List (κ × Option Int)) :
    ∀ (n : Nat) (seen : List κ) (acc : Group κ), SGInv old n seen acc →
      SGInv old (n + specs.length) (seen ++ specs.map Prod.fst) (Group.setGroupsAux old n specs acc) := by
  induction specs with
  | nil => intro n seen acc h; simpa [Group.setGroupsAux] using h
  | cons p rest ih =>
    obtain ⟨c, lim⟩ := p
    intro n seen acc h
    simp only [Group.setGroupsAux]
    have key : SGInv old (n+1) (seen ++ [c]) (Group.store acc ⟨c, allocOf old c, lim, n⟩) := by
      constructor
      · rw [store_codes]
        split
        · exact h.nodup
        · rename_i hc
          rw [List.nodup_append]
          refine ⟨h.nodup, by simp, ?_⟩
          rintro a ha b hb rfl
          simp at hb; subst hb; exact hc ha
      · intro x
        rw [store_codes]
        have := h.codes x
        split
        · rename_i hc
          simp only at hc
          have := h.codes c
          grind
        · grind
      · intro e he
        rcases mem_store he with rfl | ⟨he, _⟩
        · rfl
        · exact h.alloc e he
      · intro e he
        rcases mem_store he with rfl | ⟨he, _⟩
        · simp
        · have := h.prio e he; omega
      · intro e he e' he' hp
        rcases mem_store he with rfl | ⟨he, _⟩ <;> rcases mem_store he' with rfl | ⟨he', _⟩
        · rfl
        · have := h.prio e' he'; simp at hp; omega
        · have := h.prio e he; simp at hp; omega
        · exact h.inj e he e' he' hp
    have := ih (n+1) (seen ++ [c]) _ key
    have h2 : n + 1 + rest.length = n + (rest.length + 1) := by omega
    simpa [h2, List.length_cons] using this

theorem sginv_setGroups (old : Group κ) (specs : List (κ × Option Int)) :
    SGInv old specs.length (specs.map Prod.fst) (Group.setGroups old specs) := by
  have := sginv_aux old specs 0 [] [] ⟨by simp [Group.codes], by simp [Group.codes], by simp, by simp, by simp⟩
  simpa [Group.setGroups] using this

theorem setGroupsAux_nodup (old : Group κ) (specs : List (κ × Option Int)) :
    ∀ (n : Nat) (acc : Group κ), (acc.codes ++ specs.map Prod.fst).Nodup →
      Group.setGroupsAux old n specs acc =
        acc ++ (specs.zipIdx n).map (fun p => ⟨p.1.1, allocOf old p.1.1, p.1.2, p.2⟩) := by
  induction specs with
  | nil => intro n acc _; simp [Group.setGroupsAux]
  | cons p rest ih =>
    obtain ⟨c, lim⟩ := p
    intro n acc hn
    have hc : c ∉ acc.codes := by
      rw [List.nodup_append] at hn
      intro h; exact hn.2.2 c h c (by simp) rfl
    have hs : Group.store acc ⟨c, allocOf old c, lim, n⟩ = acc ++ [⟨c, allocOf old c, lim, n⟩] := by
      unfold Group.store
      simp [Group.find_none.2 hc]
    simp only [Group.setGroupsAux]
    rw [hs, ih]
    · simp [List.zipIdx_cons]
    · simpa [Group.codes] using hn

/-! ### Histories -/

inductive GOp (κ : Type) where
  | setGroups (specs : List (κ × Option Int))
  | issue
  | fix (code : κ) (t : Nat)
  | rollback
  | reload

/-- Perform an operation on a group scheduler, logging what the user sees (newest first). -/
def gstepLog (p : Group κ × List (GEv κ)) : GOp κ → Group κ × List (GEv κ)
  | .setGroups specs => (p.1.setGroups specs, .groups (specs.map Prod.fst) :: p.2)
  | .issue => match p.1.issue with
    | (none, g) => (g, p.2)
    | (some (c, t), g) => (g, .issued c t :: p.2)
  | .fix c t => match p.1.fix c t with
    | .ok g => (g, .fixed c t :: p.2)
    | .error _ => p
  | .rollback => (p.1.rollback, .rolledBack :: p.2)
  | .reload => (p.1.reload, p.2)

def grunLog (ops : List (GOp κ)) : Group κ × List (GEv κ) := ops.foldl gstepLog ([], [])

structure GInv (g : Group κ) (l : List (GEv κ)) : Prop where
  nodup : g.codes.Nodup
  inj : ∀ e ∈ g, ∀ e' ∈ g, e.priority = e'.priority → e.code = e'.code
  inv : ∀ c, Inv (allocOf g c) (proj c l)

theorem allocOf_of_mem {g : Group κ} (hn : g.codes.Nodup) {e} (he : e ∈ g) :
    allocOf g e.code = e.alloc := by
  simp [allocOf, Group.find_of_mem hn he]

theorem allocOf_not_mem {g : Group κ} {c : κ} (h : c ∉ g.codes) : allocOf g c = Simple.init := by
  simp [allocOf, Group.find_none.2 h]

theorem mem_codes {g : Group κ} {c : κ} : c ∈ g.codes ↔ ∃ e ∈ g, e.code = c := by
  simp [Group.codes]

theorem allocOf_setAlloc {g : Group κ} (hn : g.codes.Nodup) {c : κ} (hc : c ∈ g.codes) (a : Simple) (x : κ) :
    allocOf (g.setAlloc c a) x = if x = c then a else allocOf g x := by
  have hn' : (g.setAlloc c a).codes.Nodup := by rw [codes_setAlloc]; exact hn
  by_cases hx : x = c
  · subst hx
    obtain ⟨e, he, rfl⟩ := mem_codes.1 hc
    have : ({ e with alloc := a } : GEntry κ) ∈ g.setAlloc e.code a := mem_setAlloc.2 (Or.inl ⟨e, he, rfl, rfl⟩)
    simpa using allocOf_of_mem hn' this
  · simp only [hx, if_false]
    by_cases hm : x ∈ g.codes
    · obtain ⟨e, he, rfl⟩ := mem_codes.1 hm
      rw [allocOf_of_mem hn he]
      exact allocOf_of_mem hn' (mem_setAlloc.2 (Or.inr ⟨he, hx⟩))
    · rw [allocOf_not_mem hm, allocOf_not_mem (by rw [codes_setAlloc]; exact hm)]

theorem allocOf_map {g : Group κ} (f : Simple → Simple) (hf : f Simple.init = Simple.init) (x : κ) :
    allocOf (g.map (fun e => { e with alloc := f e.alloc })) x = f (allocOf g x) := by
  unfold allocOf Group.find
  rw [List.find?_map]
  have : ((fun e : GEntry κ => decide (e.code = x)) ∘ fun e : GEntry κ => ({ e with alloc := f e.alloc } : GEntry κ))
      = fun e : GEntry κ => decide (e.code = x) := by funext e; rfl
  rw [this]
  cases List.find? (fun e : GEntry κ => decide (e.code = x)) g <;> simp [hf]

theorem allocOf_setGroups (g : Group κ) (specs : List (κ × Option Int)) (x : κ) :
    allocOf (g.setGroups specs) x = if x ∈ specs.map Prod.fst then allocOf g x else Simple.init := by
  have hs := sginv_setGroups g specs
  by_cases hx : x ∈ specs.map Prod.fst
  · obtain ⟨e, he, rfl⟩ := mem_codes.1 ((hs.codes x).2 hx)
    rw [allocOf_of_mem hs.nodup he, if_pos hx, hs.alloc e he]
  · rw [if_neg hx, allocOf_not_mem]
    intro hc; exact hx ((hs.codes x).1 hc)

theorem issue_eq {g : Group κ} {c : κ} {t : Nat} {g' : Group κ} (h : g.issue = (some (c, t), g')) :
    ∃ e ∈ g, e.available = true ∧ (∀ x ∈ g, x.available = true → ¬ x.before e = true) ∧
      c = e.code ∧ t = e.alloc.issue.1 ∧ g' = g.setAlloc e.code e.alloc.issue.2 := by
  unfold Group.issue at h
  cases hm : Group.minAvail (g.filter GEntry.available) with
  | none => rw [hm] at h; simp at h
  | some e =>
    rw [hm] at h
    simp only [Prod.mk.injEq, Option.some.injEq] at h
    obtain ⟨h1, h2⟩ := minAvail_some hm
    obtain ⟨ha, hb⟩ := List.mem_filter.1 h1
    refine ⟨e, ha, hb, ?_, h.1.1.symm, h.1.2.symm, h.2.symm⟩
    intro x hx hxa
    exact h2 x (List.mem_filter.2 ⟨hx, hxa⟩)

theorem issue_none {g g' : Group κ} (h : g.issue = (none, g')) :
    g' = g ∧ ∀ e ∈ g, ¬ e.available = true := by
  unfold Group.issue at h
  cases hm : Group.minAvail (g.filter GEntry.available) with
  | some e => rw [hm] at h; simp at h
  | none =>
    rw [hm] at h
    simp only [Prod.mk.injEq, true_and] at h
    refine ⟨h.symm, ?_⟩
    intro e he ha
    have := minAvail_none.1 hm
    have h2 : e ∈ g.filter GEntry.available := List.mem_filter.2 ⟨he, ha⟩
    rw [this] at h2; simp at h2

theorem ginv_setAlloc {g : Group κ} (hn : g.codes.Nodup)
    (hi : ∀ e ∈ g, ∀ e' ∈ g, e.priority = e'.priority → e.code = e'.code) (c : κ) (a : Simple) :
    (g.setAlloc c a).codes.Nodup ∧
    ∀ e ∈ g.setAlloc c a, ∀ e' ∈ g.setAlloc c a, e.priority = e'.priority → e.code = e'.code := by
  refine ⟨by rw [codes_setAlloc]; exact hn, ?_⟩
  intro e he e' he' hp
  rw [mem_setAlloc] at he he'
  rcases he with ⟨x, hx, hxc, rfl⟩ | ⟨hx, hxc⟩ <;> rcases he' with ⟨y, hy, hyc, rfl⟩ | ⟨hy, hyc⟩
  · exact hi x hx y hy hp
  · exact hi x hx e' hy hp
  · exact hi e hx y hy hp
  · exact hi e hx e' hy hp

theorem fix_eq {g g' : Group κ} {c : κ} {t : Nat} (h : g.fix c t = .ok g') :
    ∃ e ∈ g, e.code = c ∧ ∃ a, e.alloc.fix t = .ok a ∧ g' = g.setAlloc c a := by
  unfold Group.fix at h
  cases hf : g.find c with
  | none => rw [hf] at h; simp at h
  | some e =>
    rw [hf] at h
    simp only at h
    obtain ⟨h1, h2⟩ := Group.find_some hf
    cases ha : e.alloc.fix t with
    | error _ => rw [ha] at h; simp [bind, Except.bind] at h
    | ok a =>
      rw [ha] at h
      simp [bind, Except.bind, pure, Except.pure] at h
      exact ⟨e, h1, h2, a, ha, h.symm⟩

theorem reload_eq {g : Group κ} {l} (h : GInv g l) : g.reload = g := by
  unfold Group.reload
  conv => rhs; rw [← List.map_id g]
  apply List.map_congr_left
  intro e he
  have := h.inv e.code
  rw [allocOf_of_mem h.nodup he] at this
  simp only [this.reload_eq, id]

theorem ginv_step {p : Group κ × List (GEv κ)} (h : GInv p.1 p.2) (op : GOp κ) :
    GInv (gstepLog p op).1 (gstepLog p op).2 := by
  cases op with
  | setGroups specs =>
    simp only [gstepLog]
    have hs := sginv_setGroups p.1 specs
    refine ⟨hs.nodup, hs.inj, ?_⟩
    intro c
    rw [allocOf_setGroups]
    simp only [proj]
    split
    · exact h.inv c
    · exact inv_init
  | issue =>
    simp only [gstepLog]
    rcases hi : p.1.issue with ⟨_ | ⟨c, t⟩, g'⟩
    · obtain ⟨rfl, _⟩ := issue_none hi
      exact h
    · obtain ⟨e, he, _, _, rfl, rfl, rfl⟩ := issue_eq hi
      obtain ⟨h1, h2⟩ := ginv_setAlloc h.nodup h.inj e.code e.alloc.issue.2
      refine ⟨h1, h2, ?_⟩
      intro x
      rw [allocOf_setAlloc h.nodup (mem_codes.2 ⟨e, he, rfl⟩)]
      simp only [proj]
      have hx := h.inv x
      by_cases hc : x = e.code
      · subst hc
        rw [allocOf_of_mem h.nodup he] at hx
        simpa using inv_issue hx
      · simp [hc, Ne.symm hc]; exact hx
  | fix c t =>
    simp only [gstepLog]
    cases hf : p.1.fix c t with
    | error _ => exact h
    | ok g' =>
      obtain ⟨e, he, rfl, a, ha, rfl⟩ := fix_eq hf
      obtain ⟨h1, h2⟩ := ginv_setAlloc h.nodup h.inj e.code a
      refine ⟨h1, h2, ?_⟩
      intro x
      rw [allocOf_setAlloc h.nodup (mem_codes.2 ⟨e, he, rfl⟩)]
      simp only [proj]
      have hx := h.inv x
      by_cases hc : x = e.code
      · subst hc
        rw [allocOf_of_mem h.nodup he] at hx
        simpa using inv_fix hx ha
      · simp [hc, Ne.symm hc]; exact hx
  | rollback =>
    simp only [gstepLog]
    refine ⟨?_, ?_, ?_⟩
    · have : p.1.rollback.codes = p.1.codes := by
        simp [Group.rollback, Group.codes]
      rw [this]; exact h.nodup
    · intro e he e' he' hp
      simp only [Group.rollback, List.mem_map] at he he'
      obtain ⟨x, hx, rfl⟩ := he
      obtain ⟨y, hy, rfl⟩ := he'
      exact h.inj x hx y hy hp
    · intro c
      simp only [Group.rollback, proj]
      rw [allocOf_map Simple.rollback rfl]
      exact inv_rollback (h.inv c)
  | reload => simp only [gstepLog, reload_eq h]; exact h

theorem ginv_foldl (ops : List (GOp κ)) {p : Group κ × List (GEv κ)} (h : GInv p.1 p.2) :
    GInv (ops.foldl gstepLog p).1 (ops.foldl gstepLog p).2 := by
  induction ops generalizing p with
  | nil => exact h
  | cons op ops ih => exact ih (ginv_step h op)

theorem ginv_run (ops : List (GOp κ)) : GInv (grunLog ops).1 (grunLog ops).2 :=
  ginv_foldl ops (p := (([] : Group κ), [])) ⟨by simp [Group.codes], by simp, fun _ => inv_init⟩

/-- No set_groups() call among the operations. -/
def noSetGroups : List (GOp κ) → Prop
  | [] => True
  | .setGroups _ :: _ => False
  | _ :: ops => noSetGroups ops

/-- Every limited group has issued no more than its limit. -/
def WithinLimits (g : Group κ) : Prop := ∀ e ∈ g, ∀ l, e.limit = some l → e.alloc.issued ≤ l

theorem issue_issued (s : Simple) : s.issue.2.issued = s.issued + 1 := by
  unfold Simple.issue; cases s.toReissue.min? <;> rfl

theorem withinLimits_step {p : Group κ × List (GEv κ)} (hi : GInv p.1 p.2) (hw : WithinLimits p.1)
    (op : GOp κ) (hop : ∀ specs, op ≠ .setGroups specs) : WithinLimits (gstepLog p op).1 := by
  cases op with
  | setGroups specs => exact absurd rfl (hop specs)
  | issue =>
    simp only [gstepLog]
    rcases h : p.1.issue with ⟨_ | ⟨c, t⟩, g'⟩
    · obtain ⟨rfl, _⟩ := issue_none h
      exact hw
    · obtain ⟨e, he, hav, _, rfl, rfl, rfl⟩ := issue_eq h
      intro x hx l hl
      rw [mem_setAlloc] at hx
      rcases hx with ⟨y, hy, hc, rfl⟩ | ⟨hx, _⟩
      · have : y = e := Group.eq_of_code hi.nodup hy he hc
        subst this
        have := (GEntry.available_iff _).1 hav l hl
        simp only [issue_issued]; omega
      · exact hw x hx l hl
  | fix c t =>
    simp only [gstepLog]
    cases hf : p.1.fix c t with
    | error _ => exact hw
    | ok g' =>
      obtain ⟨e, he, rfl, a, ha, rfl⟩ := fix_eq hf
      intro x hx l hl
      rw [mem_setAlloc] at hx
      rcases hx with ⟨y, hy, hc, rfl⟩ | ⟨hx, _⟩
      · have : y = e := Group.eq_of_code hi.nodup hy he hc
        subst this
        have h2 : a.issued = y.alloc.issued := by
          unfold Simple.fix setRemove at ha
          split at ha
          · simp [bind, Except.bind, pure, Except.pure] at ha; rw [← ha]
          · simp [bind, Except.bind] at ha
        simp only [h2]; exact hw y he l hl
      · exact hw x hx l hl
  | rollback =>
    simp only [gstepLog, Group.rollback]
    intro x hx l hl
    simp only [List.mem_map] at hx
    obtain ⟨y, hy, rfl⟩ := hx
    have := hw y hy l hl
    simp only [Simple.rollback]; omega
  | reload =>
    simp only [gstepLog, reload_eq hi]; exact hw

theorem withinLimits_foldl (ops : List (GOp κ)) {p : Group κ × List (GEv κ)} (hi : GInv p.1 p.2)
    (hw : WithinLimits p.1) (hop : noSetGroups ops) : WithinLimits (ops.foldl gstepLog p).1 := by
  induction ops generalizing p with
  | nil => exact hw
  | cons op ops ih =>
    simp only [List.foldl_cons]
    refine ih (ginv_step hi op) (withinLimits_step hi hw op ?_) ?_
    · rintro specs rfl; exact hop
    · cases op <;> first | exact hop | exact absurd hop id

end Gomill.Sched
