import Verif.Props.CemUpdate
import Verif.Lemmas.GroupScheduler
import Verif.Lemmas.Text
/-
Histories of a cross-entropy tuner.
-/
namespace Gomill.Cem
open Py Sched SchedSpec CemSpec

/-! ### Names -/

theorem digits_sep {a b : List Char} (ha : ∀ c ∈ a, c.isDigit = true) (hb : ∀ c ∈ b, c.isDigit = true) {x y : Char} (hx : x.isDigit = false)
    (hy : y.isDigit = false) {s t : List Char} (h : a ++ x :: s = b ++ y :: t) : a = b ∧ x = y ∧ s = t := by
  induction a generalizing b with
  | nil =>
    cases b with
    | nil => simpa using h
    | cons c b =>
      simp only [List.nil_append, List.cons_append, List.cons.injEq] at h
      have := hb c (by simp)
      rw [← h.1, hx] at this; cases this
  | cons c a ih =>
    cases b with
    | nil =>
      simp only [List.nil_append, List.cons_append, List.cons.injEq] at h
      have := ha c (by simp)
      rw [h.1, hy] at this; cases this
    | cons d b =>
      simp only [List.cons_append, List.cons.injEq] at h
      obtain ⟨h1, h2, h3⟩ := ih (fun c hc => ha c (by simp [hc])) (fun c hc => hb c (by simp [hc])) h.2
      exact ⟨by rw [h.1, h1], h2, h3⟩

theorem toDigits_inj {m n : Nat} (h : Nat.toDigits 10 m = Nat.toDigits 10 n) : m = n := by
  have := parseDigits_toDigits m
  rw [h, parseDigits_toDigits n] at this
  exact (Except.ok.inj this).symm

theorem gameName_prefix (g i g' i' r' : Nat) (t : List Char) (h : candidateName g i ++ 'r' :: t = gameName g' i' r') :
    g = g' ∧ i = i' ∧ t = Nat.toDigits 10 r' := by
  unfold candidateName gameName at h
  rw [List.cons_append, List.append_assoc, List.cons_append] at h
  obtain ⟨h1, _, h2⟩ := digits_sep (fun c hc => toDigits_isDigit hc) (fun c hc => toDigits_isDigit hc) (by decide) (by decide) (List.cons.inj h).2
  obtain ⟨h3, _, h4⟩ := digits_sep (fun c hc => toDigits_isDigit hc) (fun c hc => toDigits_isDigit hc) (by decide) (by decide) h2
  exact ⟨toDigits_inj h1, toDigits_inj h3, h4⟩

theorem gameName_eq (g i r : Nat) : gameName g i r = candidateName g i ++ 'r' :: Nat.toDigits 10 r := by
  simp [gameName, candidateName]

theorem gameName_inj {g i r g' i' r' : Nat} (h : gameName g i r = gameName g' i' r') : g = g' ∧ i = i' ∧ r = r' := by
  rw [gameName_eq] at h
  obtain ⟨h1, h2, h3⟩ := gameName_prefix g i g' i' r' _ h
  exact ⟨h1, h2, toDigits_inj h3⟩

/-! ### Records -/

/-- A result which has been processed. -/
structure Rec where
  gen : Nat
  cand : Nat
  round : Nat
  score : Rat

def Rec.entry (x : Rec) : Str × Rat := (gameName x.gen x.cand x.round, x.score)

def Rec.isOf (g i : Nat) (x : Rec) : Bool := x.gen = g && x.cand = i

def rounds (l : List Rec) (g i : Nat) : List Nat := (l.filter (Rec.isOf g i)).map Rec.round

def pts (l : List Rec) (g i : Nat) : Rat := ((l.filter (Rec.isOf g i)).map Rec.score).sum

theorem prefix_iff (g i : Nat) (x : Rec) : (candidateName g i ++ ['r']).isPrefixOf x.entry.1 = Rec.isOf g i x := by
  rw [Bool.eq_iff_iff, List.isPrefixOf_iff_prefix]
  simp only [Rec.isOf, Bool.and_eq_true, decide_eq_true_eq]
  constructor
  · rintro ⟨t, ht⟩
    obtain ⟨h1, h2, _⟩ := gameName_prefix g i x.gen x.cand x.round t (by simpa [Rec.entry] using ht)
    exact ⟨h1.symm, h2.symm⟩
  · rintro ⟨rfl, rfl⟩
    exact ⟨Nat.toDigits 10 x.round, by simp [Rec.entry, gameName_eq]⟩

theorem points_eq (l : List Rec) (g i : Nat) : points (l.map Rec.entry) g i = pts l g i := by
  unfold points pts
  rw [List.filter_map]
  have : ((fun p : List Char × Rat => (candidateName g i ++ ['r']).isPrefixOf p.1) ∘ Rec.entry) = Rec.isOf g i := by
    funext x; exact prefix_iff g i x
  rw [this, List.map_map]
  rfl

theorem rounds_cons (x : Rec) (l : List Rec) (g i : Nat) :
    rounds (x :: l) g i = if x.gen = g ∧ x.cand = i then x.round :: rounds l g i else rounds l g i := by
  unfold rounds
  by_cases h : x.gen = g ∧ x.cand = i
  · rw [if_pos h, List.filter_cons_of_pos (by simp [Rec.isOf, h]), List.map_cons]
  · rw [if_neg h, List.filter_cons_of_neg (by simpa [Rec.isOf] using h)]

theorem pts_cons (x : Rec) (l : List Rec) (g i : Nat) :
    pts (x :: l) g i = if x.gen = g ∧ x.cand = i then x.score + pts l g i else pts l g i := by
  unfold pts
  by_cases h : x.gen = g ∧ x.cand = i
  · rw [if_pos h, List.filter_cons_of_pos (by simp [Rec.isOf, h]), List.map_cons, List.sum_cons]
  · rw [if_neg h, List.filter_cons_of_neg (by simpa [Rec.isOf] using h)]

theorem filter_of_none {l : List Rec} {g i : Nat} (h : ∀ x ∈ l, ¬ (x.gen = g ∧ x.cand = i)) : l.filter (Rec.isOf g i) = [] := by
  rw [List.filter_eq_nil_iff]
  intro x hx
  have := h x hx
  simpa [Rec.isOf] using this

theorem rounds_none {l : List Rec} {g i : Nat} (h : ∀ x ∈ l, ¬ (x.gen = g ∧ x.cand = i)) : rounds l g i = [] := by
  rw [rounds, filter_of_none h]; rfl

theorem pts_none {l : List Rec} {g i : Nat} (h : ∀ x ∈ l, ¬ (x.gen = g ∧ x.cand = i)) : pts l g i = 0 := by
  rw [pts, filter_of_none h]; rfl

theorem mem_rounds {l : List Rec} {g i r : Nat} : r ∈ rounds l g i ↔ ∃ x ∈ l, x.gen = g ∧ x.cand = i ∧ x.round = r := by
  simp only [rounds, List.mem_map, List.mem_filter, Rec.isOf, Bool.and_eq_true, decide_eq_true_eq]
  constructor
  · rintro ⟨x, ⟨hx, h1, h2⟩, h3⟩; exact ⟨x, hx, h1, h2, h3⟩
  · rintro ⟨x, hx, h1, h2, h3⟩; exact ⟨x, ⟨hx, h1, h2⟩, h3⟩

/-! ### The scheduler and the wins -/

/-- For a generation `cur` being played by `n` candidates, each playing at most `b` games; earlier generations have been completed, each candidate
having played the same number of games, between `lo` and `hi`. -/
structure Core (n b lo hi cur : Nat) (sch : Sched.Group Nat) (wins : List Rat) (l : List Rec) : Prop where
  nodup : sch.codes.Nodup
  codes : ∀ x, x ∈ sch.codes ↔ x < n
  alloc : ∀ i, ∃ evs, Sched.Inv (allocOf sch i) evs ∧ fixedTokens evs = rounds l cur i ∧ (allocOf sch i).nextNew ≤ b
  past : ∀ g < cur, ∃ k, lo ≤ k ∧ k ≤ hi ∧ ∀ i < n, (rounds l g i).Perm (List.range k)
  range : ∀ x ∈ l, x.gen ≤ cur ∧ x.cand < n
  winsLen : wins.length = n
  wins : ∀ i < n, wins[i]? = some (pts l cur i)

theorem Core.mono {n b b' lo hi cur : Nat} {sch wins l} (h : Core n b lo hi cur sch wins l) (hb : b ≤ b') : Core n b' lo hi cur sch wins l :=
  ⟨h.nodup, h.codes, fun i => (let ⟨evs, h1, h2, h3⟩ := h.alloc i; ⟨evs, h1, h2, h3.trans hb⟩), h.past, h.range, h.winsLen, h.wins⟩

/-- Nothing is left to do in a generation. -/
def AllDone (n b : Nat) (sch : Sched.Group Nat) : Prop := ∀ i < n, (allocOf sch i).fixed = b

theorem Core.done {n b lo hi cur : Nat} {sch wins l} (h : Core n b lo hi cur sch wins l) {i : Nat} (hd : (allocOf sch i).fixed ≥ (b : Int)) :
    (allocOf sch i).fixed = b ∧ (allocOf sch i).issued = b ∧ (allocOf sch i).outstanding = [] ∧ (allocOf sch i).toReissue = [] ∧
      (rounds l cur i).Perm (List.range b) := by
  obtain ⟨evs, h1, h2, h3⟩ := h.alloc i
  have hn := h1.nextNew_eq
  have hf := h1.fixedN
  have hi := h1.issuedN
  have ho : (allocOf sch i).outstanding.length = 0 := by omega
  have hr : (allocOf sch i).toReissue.length = 0 := by omega
  have ho' := List.length_eq_zero_iff.1 ho
  have hr' := List.length_eq_zero_iff.1 hr
  refine ⟨by omega, by omega, ho', hr', ?_⟩
  rw [← h2, List.perm_ext_iff_of_nodup h1.nodupF List.nodup_range]
  intro a
  have := h1.cover a
  rw [ho', hr'] at this
  simp only [List.not_mem_nil, false_or] at this
  rw [← this, List.mem_range]
  omega

theorem allFixed_iff {n b : Nat} {sch : Sched.Group Nat} (hn : sch.codes.Nodup) (hc : ∀ x, x ∈ sch.codes ↔ x < n)
    (hl : ∀ e ∈ sch, e.limit = some (b : Int)) : sch.allFixed = true ↔ ∀ i < n, (allocOf sch i).fixed ≥ (b : Int) := by
  unfold Group.allFixed
  rw [List.all_eq_true]
  constructor
  · intro h i hi
    obtain ⟨e, he, rfl⟩ := mem_codes.1 ((hc i).2 hi)
    have := h e he
    rw [hl e he] at this
    rw [allocOf_of_mem hn he]
    simpa using this
  · intro h e he
    rw [hl e he]
    have := h e.code ((hc _).1 (mem_codes.2 ⟨e, he, rfl⟩))
    rw [allocOf_of_mem hn he] at this
    simpa using this

theorem issue_next {s : Simple} {evs : List Ev} (h : Sched.Inv s evs) {b : Nat} (hn : s.nextNew ≤ b) (hi : s.issued < (b : Int)) :
    s.issue.2.nextNew ≤ b := by
  unfold Simple.issue
  cases hm : s.toReissue.min? with
  | some r => simpa using hn
  | none =>
    have h1 := h.nextNew_eq
    have h2 := h.issuedN
    have h4 : s.toReissue = [] := by simpa using hm
    rw [h4] at h1
    simp at h1
    simp only
    omega

theorem Core.issue {n b lo hi cur : Nat} {sch sch' : Sched.Group Nat} {wins l} (h : Core n b lo hi cur sch wins l)
    (hl : ∀ e ∈ sch, e.limit = some (b : Int)) {i r : Nat} (hiss : sch.issue = (some (i, r), sch')) :
    Core n b lo hi cur sch' wins l ∧ i < n ∧ r = (allocOf sch i).issue.1 ∧
      (∀ x, allocOf sch' x = if x = i then (allocOf sch i).issue.2 else allocOf sch x) ∧ (∀ e ∈ sch', e.limit = some (b : Int)) := by
  obtain ⟨e, he, hav, _, hc, ht, hg⟩ := issue_eq hiss
  have hmem : i ∈ sch.codes := mem_codes.2 ⟨e, he, hc.symm⟩
  have hal : allocOf sch i = e.alloc := by rw [hc]; exact allocOf_of_mem h.nodup he
  have hset : ∀ x, allocOf sch' x = if x = i then (allocOf sch i).issue.2 else allocOf sch x := by
    intro x
    rw [hg, hal, ← hc]
    exact allocOf_setAlloc h.nodup hmem _ x
  have hlt : e.alloc.issued < (b : Int) := by
    have := hav
    unfold GEntry.available at this
    rw [hl e he] at this
    simpa using this
  refine ⟨⟨?_, ?_, ?_, h.past, h.range, h.winsLen, h.wins⟩, (h.codes i).1 hmem, by rw [hal]; exact ht, hset, ?_⟩
  · rw [hg, codes_setAlloc]; exact h.nodup
  · intro x; rw [hg, codes_setAlloc]; exact h.codes x
  · intro x
    obtain ⟨evs, h1, h2, h3⟩ := h.alloc x
    rw [hset]
    by_cases hx : x = i
    · rw [if_pos hx]
      subst hx
      exact ⟨_, inv_issue h1, by simpa [fixedTokens] using h2, issue_next h1 h3 (by rw [hal]; exact hlt)⟩
    · rw [if_neg hx]; exact ⟨evs, h1, h2, h3⟩
  · intro x hx
    rw [hg] at hx
    rcases mem_setAlloc.1 hx with ⟨y, hy, _, rfl⟩ | ⟨hx, _⟩
    · exact hl y hy
    · exact hl x hx

theorem simple_fix {s : Simple} {r : Nat} (h : r ∈ s.outstanding) :
    s.fix r = .ok { s with outstanding := s.outstanding.erase r, fixed := s.fixed + 1 } := by
  unfold Simple.fix setRemove
  rw [if_pos h]
  rfl

theorem Core.outstanding_lt {n b lo hi cur : Nat} {sch : Sched.Group Nat} {wins l} (h : Core n b lo hi cur sch wins l) {i r : Nat}
    (hr : r ∈ (allocOf sch i).outstanding) : i < n := by
  by_contra hn
  have : i ∉ sch.codes := fun hc => hn ((h.codes i).1 hc)
  rw [allocOf_not_mem this] at hr
  simp [Simple.init] at hr

theorem Core.fix {n b lo hi cur : Nat} {sch : Sched.Group Nat} {wins l} (h : Core n b lo hi cur sch wins l)
    (hl : ∀ e ∈ sch, e.limit = some (b : Int)) {i r : Nat} (hr : r ∈ (allocOf sch i).outstanding) (q : Rat) :
    ∃ sch', sch.fix i r = .ok sch' ∧ (∀ e ∈ sch', e.limit = some (b : Int)) ∧
      (∀ x, (allocOf sch' x).outstanding = if x = i then (allocOf sch i).outstanding.erase r else (allocOf sch x).outstanding) ∧
      ∀ w, wins[i]? = some w → Core n b lo hi cur sch' (wins.set i (w + q)) (⟨cur, i, r, q⟩ :: l) := by
  have hin := h.outstanding_lt hr
  have hmem := (h.codes i).2 hin
  obtain ⟨e, he, rfl⟩ := mem_codes.1 hmem
  have hal := allocOf_of_mem h.nodup he
  have hfix := simple_fix hr
  obtain ⟨a, ha⟩ : ∃ a : Simple, a = { allocOf sch e.code with outstanding := (allocOf sch e.code).outstanding.erase r, fixed := (allocOf sch e.code).fixed + 1 } := ⟨_, rfl⟩
  rw [← ha] at hfix
  have hset := allocOf_setAlloc h.nodup hmem a
  have hao : a.outstanding = (allocOf sch e.code).outstanding.erase r := by rw [ha]
  have han : a.nextNew = (allocOf sch e.code).nextNew := by rw [ha]
  refine ⟨sch.setAlloc e.code a, ?_, ?_, ?_, ?_⟩
  · unfold Group.fix
    rw [Group.find_of_mem h.nodup he]
    rw [hal] at hfix
    show (do let a ← e.alloc.fix r; return Group.setAlloc sch e.code a) = _
    rw [hfix]; rfl
  · intro x hx
    rcases mem_setAlloc.1 hx with ⟨y, hy, _, rfl⟩ | ⟨hx, _⟩
    · exact hl y hy
    · exact hl x hx
  · intro x
    rw [hset]
    by_cases hx : x = e.code
    · rw [if_pos hx, if_pos hx, hao]
    · rw [if_neg hx, if_neg hx]
  · intro w hw
    refine ⟨by rw [codes_setAlloc]; exact h.nodup, by intro x; rw [codes_setAlloc]; exact h.codes x, ?_, ?_, ?_, by simpa using h.winsLen, ?_⟩
    · intro x
      obtain ⟨evs, h1, h2, h3⟩ := h.alloc x
      rw [hset, rounds_cons]
      by_cases hx : x = e.code
      · subst hx
        rw [if_pos rfl, if_pos ⟨rfl, rfl⟩]
        exact ⟨_, inv_fix h1 hfix, by simp [fixedTokens, h2], by rw [han]; exact h3⟩
      · rw [if_neg hx, if_neg (fun hh => hx hh.2.symm)]
        exact ⟨evs, h1, h2, h3⟩
    · intro g hg
      obtain ⟨k, h1, h2, h3⟩ := h.past g hg
      refine ⟨k, h1, h2, fun x hx => ?_⟩
      rw [rounds_cons, if_neg (fun hh => by have := hh.1; simp only at this; omega)]
      exact h3 x hx
    · intro x hx
      rcases List.mem_cons.1 hx with rfl | hx
      · exact ⟨Nat.le_refl _, hin⟩
      · exact h.range x hx
    · intro x hx
      rw [pts_cons]
      by_cases hxe : e.code = x
      · subst hxe
        have := h.wins e.code hin
        rw [hw] at this
        have hlen : e.code < wins.length := by rw [h.winsLen]; exact hin
        rw [if_pos ⟨rfl, rfl⟩, List.getElem?_set_self hlen, Option.some.inj this]
        show some (_ + q) = some (q + _)
        rw [add_comm]
      · rw [if_neg (fun hh => hxe hh.2), List.getElem?_set_ne hxe]
        exact h.wins x hx

/-! ### New generations and restarts -/

theorem specs_fst (c : Config) : (groupSpecs c).map Prod.fst = List.range c.samples := by
  unfold groupSpecs
  rw [List.map_map]
  conv => rhs; rw [← List.map_id (List.range c.samples)]
  rfl

theorem setGroups_facts (c : Config) (old : Sched.Group Nat) :
    (Group.setGroups old (groupSpecs c)).codes.Nodup ∧ (∀ x, x ∈ (Group.setGroups old (groupSpecs c)).codes ↔ x < c.samples) ∧
    (∀ e ∈ Group.setGroups old (groupSpecs c), e.limit = some (c.batch : Int)) ∧
    (∀ x, allocOf (Group.setGroups old (groupSpecs c)) x = if x < c.samples then allocOf old x else Simple.init) := by
  have hs := sginv_setGroups old (groupSpecs c)
  refine ⟨hs.nodup, ?_, ?_, ?_⟩
  · intro x; rw [hs.codes x, specs_fst, List.mem_range]
  · intro e he
    unfold Group.setGroups at he
    rw [setGroupsAux_nodup old _ 0 [] (by rw [specs_fst]; simpa [Group.codes] using List.nodup_range), List.nil_append, List.mem_map] at he
    obtain ⟨⟨p, k⟩, hp, rfl⟩ := he
    have hp' := List.fst_mem_of_mem_zipIdx hp
    unfold groupSpecs at hp'
    obtain ⟨i, _, hi⟩ := List.mem_map.1 hp'
    simp only at hi
    show p.2 = _
    rw [← hi]
  · intro x
    rw [allocOf_setGroups, specs_fst]
    simp only [List.mem_range]

theorem Core.reset {c : Config} {n lo hi cur : Nat} {sch wins l} (h : Core n c.batch lo hi cur sch wins l) (hn : c.samples = n)
    (hlo : lo ≤ c.batch) (hhi : c.batch ≤ hi) (hd : ∀ i < n, (allocOf sch i).fixed ≥ (c.batch : Int)) :
    Core n c.batch lo hi (cur + 1) (Group.setGroups [] (groupSpecs c)) (List.replicate c.samples 0) l := by
  obtain ⟨h1, h2, h3, h4⟩ := setGroups_facts c []
  have hnone : ∀ i, ∀ x ∈ l, ¬ (x.gen = cur + 1 ∧ x.cand = i) := by
    intro i x hx hh
    have := (h.range x hx).1
    omega
  refine ⟨h1, fun x => by rw [h2, hn], ?_, ?_, fun x hx => ⟨by have := (h.range x hx).1; omega, (h.range x hx).2⟩, by simp [hn], ?_⟩
  · intro i
    have : allocOf (Group.setGroups [] (groupSpecs c)) i = Simple.init := by
      rw [h4]; split <;> rfl
    rw [this, rounds_none (hnone i)]
    exact ⟨[], inv_init, rfl, by simp [Simple.init]⟩
  · intro g hg
    rcases Nat.lt_or_ge g cur with hlt | hge
    · exact h.past g hlt
    · have : g = cur := by omega
      subst this
      exact ⟨c.batch, hlo, hhi, fun i hi => (h.done (hd i hi)).2.2.2.2⟩
  · intro i hi
    rw [pts_none (hnone i), hn]
    simp [hi]

theorem core_clean (c : Config) (lo hi : Nat) :
    Core c.samples c.batch lo hi 0 (Group.setGroups [] (groupSpecs c)) (List.replicate c.samples 0) [] := by
  obtain ⟨h1, h2, h3, h4⟩ := setGroups_facts c []
  refine ⟨h1, h2, ?_, by intro g hg; omega, by simp, by simp, ?_⟩
  · intro i
    have : allocOf (Group.setGroups [] (groupSpecs c)) i = Simple.init := by
      rw [h4]; split <;> rfl
    rw [this]
    exact ⟨[], inv_init, rfl, by simp [Simple.init]⟩
  · intro i hi
    simp [pts, hi]

theorem Core.load {c : Config} {n b lo hi cur : Nat} {sch wins l} (h : Core n b lo hi cur sch wins l) (hn : c.samples = n) (hb : b ≤ c.batch) :
    Core n c.batch lo hi cur (Group.setGroups sch.reload (groupSpecs c)).rollback wins l ∧
    (∀ e ∈ (Group.setGroups sch.reload (groupSpecs c)).rollback, e.limit = some (c.batch : Int)) ∧
    (∀ i, (allocOf (Group.setGroups sch.reload (groupSpecs c)).rollback i).outstanding = []) ∧
    (∀ i < n, (allocOf (Group.setGroups sch.reload (groupSpecs c)).rollback i).fixed = (allocOf sch i).fixed) := by
  obtain ⟨h1, h2, h3, h4⟩ := setGroups_facts c sch.reload
  have hre : ∀ i, allocOf sch.reload i = allocOf sch i := by
    intro i
    obtain ⟨evs, hi, _⟩ := h.alloc i
    unfold Group.reload
    rw [allocOf_map (fun a => Simple.setstate a.getstate) rfl, hi.reload_eq]
  have hal : ∀ i, allocOf (Group.setGroups sch.reload (groupSpecs c)).rollback i = (allocOf sch i).rollback := by
    intro i
    unfold Group.rollback
    rw [allocOf_map Simple.rollback rfl, h4, hre, hn]
    by_cases hi : i < n
    · rw [if_pos hi]
    · rw [if_neg hi]
      have : i ∉ sch.codes := fun hc => hi ((h.codes i).1 hc)
      rw [allocOf_not_mem this]
  have hcodes : (Group.setGroups sch.reload (groupSpecs c)).rollback.codes = (Group.setGroups sch.reload (groupSpecs c)).codes := by
    unfold Group.rollback Group.codes
    rw [List.map_map]; rfl
  refine ⟨⟨by rw [hcodes]; exact h1, fun x => by rw [hcodes, h2, hn], ?_, h.past, h.range, h.winsLen, h.wins⟩, ?_, ?_, ?_⟩
  · intro i
    obtain ⟨evs, e1, e2, e3⟩ := h.alloc i
    rw [hal]
    exact ⟨_, inv_rollback e1, by simpa [fixedTokens] using e2, by simp only [Simple.rollback]; omega⟩
  · intro e he
    unfold Group.rollback at he
    obtain ⟨x, hx, rfl⟩ := List.mem_map.1 he
    exact h3 x hx
  · intro i; rw [hal]; rfl
  · intro i _; rw [hal]; rfl

end Gomill.Cem
