import Verif.Model.Tournament
import Verif.Lemmas.GameId
import Mathlib.Tactic.Ring
import Mathlib.Data.List.Nodup
import Mathlib.Tactic.Linarith
/-
C39: allplayalls.py and playoffs.py control files.
-/
namespace Gomill.Tourn
open Py

/-! ### Short codes -/

theorem letterCode_upper : ∀ n < 26, (letterCode n).isUpper = true := by decide
theorem letterCode_inj : ∀ a < 26, ∀ b < 26, letterCode a = letterCode b → a = b := by decide

/-- C39: short codes are one or two upper-case letters, there are 702 of them, and they're all different. -/
theorem C39_short_codes (i : Nat) :
    (i < 702 → ∃ s, shortCode i = .ok s ∧ (∀ c ∈ s, c.isUpper = true) ∧ (s.length = 1 ∨ s.length = 2)) ∧
    (702 ≤ i → shortCode i = .error .controlFileError) ∧
    (∀ j s, shortCode i = .ok s → shortCode j = .ok s → i = j) := by
  refine ⟨?_, ?_, ?_⟩
  · intro h
    unfold shortCode
    split
    · rename_i h1
      exact ⟨_, rfl, by simp [letterCode_upper i h1], Or.inl rfl⟩
    · rename_i h1
      try rw [if_pos (show i < 26 * 27 by omega)]
      refine ⟨_, rfl, ?_, Or.inr rfl⟩
      intro c hc
      simp only [List.mem_cons, List.not_mem_nil, or_false] at hc
      rcases hc with rfl | rfl
      · exact letterCode_upper _ (by omega)
      · exact letterCode_upper _ (by omega)
  · intro h
    unfold shortCode
    rw [if_neg (by omega), if_neg (by omega)]
  · intro j s h1 h2
    unfold shortCode at h1 h2
    split at h1
    · split at h2
      · rename_i a b
        rw [← h2] at h1
        simp only [Except.ok.injEq, List.cons.injEq, and_true] at h1
        exact letterCode_inj _ a _ b h1
      · split at h2
        · rw [← h2] at h1; simp at h1
        · simp at h2
    · split at h1
      · split at h2
        · rw [← h2] at h1; simp at h1
        · split at h2
          · rename_i a b c d
            rw [← h2] at h1
            simp only [Except.ok.injEq, List.cons.injEq, and_true] at h1
            have e1 := letterCode_inj _ (by omega) _ (by omega) h1.1
            have e2 := letterCode_inj _ (by omega) _ (by omega) h1.2
            omega
          · simp at h2
      · simp at h1

theorem isUpper_ne_v {c : Char} (h : c.isUpper = true) : c ≠ 'v' := by
  rintro rfl; exact absurd h (by decide)

theorem pairId_inj {a b a' b' : Str} (ha : ∀ c ∈ a, c.isUpper = true) (ha' : ∀ c ∈ a', c.isUpper = true)
    (h : pairId a b = pairId a' b') : a = a' ∧ b = b' := by
  unfold pairId at h
  induction a generalizing a' with
  | nil => cases a' with
    | nil => simpa using h
    | cons x a' =>
      simp only [List.nil_append, List.cons_append, List.cons.injEq] at h
      exact absurd h.1.symm (isUpper_ne_v (ha' x (by simp)))
  | cons x a ih => cases a' with
    | nil =>
      simp only [List.nil_append, List.cons_append, List.cons.injEq] at h
      exact absurd h.1 (isUpper_ne_v (ha x (by simp)))
    | cons y a' =>
      simp only [List.cons_append, List.cons.injEq] at h
      obtain ⟨e1, e2⟩ := ih (fun c hc => ha c (by simp [hc])) (fun c hc => ha' c (by simp [hc])) h.2
      exact ⟨by rw [h.1, e1], e2⟩

/-! ### The competitor loop -/

theorem competitorLoop_iff (players : List Str) (ps : List Str) : ∀ (i : Nat) (acc r : List (Str × Str)),
    competitorLoop players i acc ps = .ok r ↔
      ∃ codes : List Str, codes.length = ps.length ∧ (∀ k (hk : k < codes.length), shortCode (i + k) = .ok codes[k]) ∧
        r = acc ++ codes.zip ps ∧ (∀ p ∈ ps, p ∈ players) ∧ (∀ p ∈ ps, p ∉ acc.map Prod.snd) ∧ ps.Nodup := by
  induction ps with
  | nil =>
    intro i acc r
    simp only [competitorLoop, List.length_nil, Except.ok.injEq, List.length_eq_zero_iff]
    constructor
    · rintro rfl; exact ⟨[], rfl, by simp, by simp, by simp, by simp, List.nodup_nil⟩
    · rintro ⟨codes, rfl, _, rfl, _⟩; simp
  | cons p ps ih =>
    intro i acc r
    unfold competitorLoop
    by_cases hp : p ∈ players
    · cases hc : shortCode i with
      | error e =>
        simp only [hp, not_true_eq_false, if_false, bind, Except.bind]
        constructor
        · intro h; simp [pure, Except.pure] at h
        · rintro ⟨codes, hl, hcod, _⟩
          have := hcod 0 (by rw [hl]; simp)
          rw [Nat.add_zero, hc] at this
          simp at this
      | ok code =>
        by_cases ha : p ∈ acc.map Prod.snd
        · simp only [hp, not_true_eq_false, if_false, bind, Except.bind, pure, Except.pure, ha, if_true]
          constructor
          · intro h; simp at h
          · rintro ⟨codes, _, _, _, _, h, _⟩
            exact absurd ha (h p (by simp))
        · simp only [hp, not_true_eq_false, if_false, bind, Except.bind, pure, Except.pure, ha]
          rw [ih]
          constructor
          · rintro ⟨codes, hl, hcod, hr, h1, h2, h3⟩
            refine ⟨code :: codes, by simp [hl], ?_, ?_, ?_, ?_, ?_⟩
            · intro k hk
              cases k with
              | zero => simpa using hc
              | succ k =>
                have := hcod k (by simpa using hk)
                rw [show i + (k+1) = i + 1 + k by omega, this]; simp
            · rw [hr]; simp
            · intro q hq
              rcases List.mem_cons.1 hq with rfl | hq
              · exact hp
              · exact h1 q hq
            · intro q hq
              rcases List.mem_cons.1 hq with rfl | hq
              · exact ha
              · intro hc'; exact h2 q hq (by simp at hc' ⊢; exact Or.inl hc')
            · rw [List.nodup_cons]
              refine ⟨?_, h3⟩
              intro hq; exact h2 p hq (by simp)
          · rintro ⟨codes, hl, hcod, hr, h1, h2, h3⟩
            cases codes with
            | nil => simp at hl
            | cons code' codes =>
              have e0 := hcod 0 (by simp)
              rw [Nat.add_zero, hc] at e0
              simp only [Except.ok.injEq, List.getElem_cons_zero] at e0
              subst e0
              rw [List.nodup_cons] at h3
              refine ⟨codes, by simpa using hl, ?_, ?_, fun q hq => h1 q (by simp [hq]), ?_, h3.2⟩
              · intro k hk
                have := hcod (k+1) (by simpa using hk)
                rw [show i + 1 + k = i + (k+1) by omega, this]; simp
              · rw [hr]; simp
              · intro q hq
                simp only [List.map_append, List.mem_append, not_or]
                refine ⟨h2 q (by simp [hq]), ?_⟩
                simp only [List.map_cons, List.map_nil, List.mem_singleton]
                rintro rfl; exact h3.1 hq
    · simp only [hp, not_false_eq_true, if_true, bind, Except.bind]
      constructor
      · intro h; simp at h
      · rintro ⟨_, _, _, _, h, _⟩; exact absurd (h p (by simp)) hp

/-! ### The pairs -/

theorem mem_pairMatchups (rounds : Option Int) (cs : List (Str × Str)) (m : Matchup) :
    m ∈ pairMatchups rounds cs ↔ ∃ i j, ∃ (hj : j < cs.length) (hij : i < j),
      m = ⟨pairId cs[i].1 cs[j].1, cs[i].2, cs[j].2, true, rounds⟩ := by
  induction cs with
  | nil => simp [pairMatchups]
  | cons c cs ih =>
    unfold pairMatchups
    rw [List.mem_append, List.mem_map, ih]
    constructor
    · rintro (⟨d, hd, rfl⟩ | ⟨i, j, hj, hij, rfl⟩)
      · obtain ⟨k, hk, rfl⟩ := List.getElem_of_mem hd
        exact ⟨0, k+1, by simpa using hk, by omega, by simp⟩
      · exact ⟨i+1, j+1, by simpa using hj, by omega, by simp⟩
    · rintro ⟨i, j, hj, hij, rfl⟩
      cases j with
      | zero => omega
      | succ j =>
        cases i with
        | zero => left; exact ⟨cs[j]'(by simpa using hj), List.getElem_mem _, by simp⟩
        | succ i => right; exact ⟨i, j, by simpa using hj, by omega, by simp⟩

theorem length_pairMatchups (rounds : Option Int) (cs : List (Str × Str)) :
    2 * (pairMatchups rounds cs).length = cs.length * (cs.length - 1) := by
  induction cs with
  | nil => rfl
  | cons c cs ih =>
    unfold pairMatchups
    rw [List.length_append, List.length_map, Nat.mul_add, ih, List.length_cons]
    cases cs.length with
    | zero => rfl
    | succ n => simp only [Nat.add_sub_cancel]; ring

theorem nodup_pairIds (rounds : Option Int) (cs : List (Str × Str)) (hn : (cs.map Prod.fst).Nodup)
    (hu : ∀ p ∈ cs, ∀ c ∈ p.1, c.isUpper = true) : ((pairMatchups rounds cs).map Matchup.id).Nodup := by
  induction cs with
  | nil => simp [pairMatchups]
  | cons c cs ih =>
    unfold pairMatchups
    rw [List.map_cons, List.nodup_cons] at hn
    rw [List.map_append, List.map_map, List.nodup_append]
    refine ⟨?_, ih hn.2 (fun p hp => hu p (by simp [hp])), ?_⟩
    · have : (Matchup.id ∘ fun c2 : Str × Str => (⟨pairId c.1 c2.1, c.2, c2.2, true, rounds⟩ : Matchup))
          = (pairId c.1) ∘ Prod.fst := rfl
      rw [this, ← List.map_map]
      apply List.Pairwise.map _ _ hn.2
      intro a b hab h
      exact hab (pairId_inj (hu c (by simp)) (hu c (by simp)) h).2
    · intro x hx y hy hxy
      subst hxy
      simp only [List.mem_map, Function.comp] at hx hy
      obtain ⟨d, hd, rfl⟩ := hx
      obtain ⟨m, hm, hid⟩ := hy
      rw [mem_pairMatchups] at hm
      obtain ⟨i, j, hj, hij, rfl⟩ := hm
      have hi : i < cs.length := by omega
      have := (pairId_inj (hu _ (by simp)) (hu c (by simp)) hid).1
      exact hn.1 (by rw [← this]; exact List.mem_map.2 ⟨_, List.getElem_mem hi, rfl⟩)

/-- A matchup between these two players. -/
def Matchup.isBetween (m : Matchup) (a b : Str) : Bool :=
  (m.player1 = a && m.player2 = b) || (m.player1 = b && m.player2 = a)

theorem count_pairs_zero (rounds : Option Int) (cs : List (Str × Str)) (a b : Str) (ha : a ∉ cs.map Prod.snd ∨ b ∉ cs.map Prod.snd) :
    (pairMatchups rounds cs).countP (fun m => m.isBetween a b) = 0 := by
  rw [List.countP_eq_zero]
  intro m hm
  rw [mem_pairMatchups] at hm
  obtain ⟨i, j, hj, hij, rfl⟩ := hm
  have h1 : cs[i].2 ∈ cs.map Prod.snd := List.mem_map.2 ⟨_, List.getElem_mem (by omega), rfl⟩
  have h2 : cs[j].2 ∈ cs.map Prod.snd := List.mem_map.2 ⟨_, List.getElem_mem (by omega), rfl⟩
  simp only [Matchup.isBetween, Bool.or_eq_true, Bool.and_eq_true, decide_eq_true_eq]
  rcases ha with ha | ha
  · rintro (⟨h, _⟩ | ⟨_, h⟩)
    · exact ha (h ▸ h1)
    · exact ha (h ▸ h2)
  · rintro (⟨_, h⟩ | ⟨h, _⟩)
    · exact ha (h ▸ h2)
    · exact ha (h ▸ h1)

theorem count_pairs_one (rounds : Option Int) (cs : List (Str × Str)) (a b : Str) (hab : a ≠ b) (hn : (cs.map Prod.snd).Nodup)
    (ha : a ∈ cs.map Prod.snd) (hb : b ∈ cs.map Prod.snd) :
    (pairMatchups rounds cs).countP (fun m => m.isBetween a b) = 1 := by
  have hone : ∀ (l : List (Str × Str)) (x : Str), (l.map Prod.snd).Nodup → x ∈ l.map Prod.snd →
      l.countP (fun p => p.2 = x) = 1 := by
    intro l x h1 h2
    have : l.countP (fun p => p.2 = x) = (l.map Prod.snd).count x := by
      rw [List.count, List.countP_map]
      apply List.countP_congr
      intro p _
      simp
    rw [this]
    exact List.count_eq_one_of_mem h1 h2
  induction cs with
  | nil => simp at ha
  | cons c cs ih =>
    rw [List.map_cons, List.nodup_cons] at hn
    unfold pairMatchups
    rw [List.countP_append, List.countP_map]
    have hcase : (c.2 = a ∧ a ∉ cs.map Prod.snd ∧ b ∈ cs.map Prod.snd) ∨ (c.2 = b ∧ b ∉ cs.map Prod.snd ∧ a ∈ cs.map Prod.snd)
        ∨ (c.2 ≠ a ∧ c.2 ≠ b ∧ a ∈ cs.map Prod.snd ∧ b ∈ cs.map Prod.snd) := by
      rw [List.map_cons, List.mem_cons] at ha hb
      by_cases h1 : c.2 = a
      · left
        refine ⟨h1, h1 ▸ hn.1, ?_⟩
        rcases hb with hb | hb
        · exact absurd (h1.symm.trans hb.symm) hab
        · exact hb
      · by_cases h2 : c.2 = b
        · right; left
          refine ⟨h2, h2 ▸ hn.1, ?_⟩
          rcases ha with ha | ha
          · exact absurd ha.symm h1
          · exact ha
        · right; right
          exact ⟨h1, h2, ha.resolve_left (fun h => h1 h.symm), hb.resolve_left (fun h => h2 h.symm)⟩
    rcases hcase with ⟨h1, h2, h3⟩ | ⟨h1, h2, h3⟩ | ⟨h1, h2, h3, h4⟩
    · rw [count_pairs_zero rounds cs a b (Or.inl h2)]
      have : cs.countP ((fun m => m.isBetween a b) ∘ fun c2 : Str × Str => (⟨pairId c.1 c2.1, c.2, c2.2, true, rounds⟩ : Matchup))
          = cs.countP (fun p => p.2 = b) := by
        apply List.countP_congr
        intro p _
        simp [Matchup.isBetween, h1, hab]
      rw [this, hone cs b hn.2 h3]
    · rw [count_pairs_zero rounds cs a b (Or.inr h2)]
      have : cs.countP ((fun m => m.isBetween a b) ∘ fun c2 : Str × Str => (⟨pairId c.1 c2.1, c.2, c2.2, true, rounds⟩ : Matchup))
          = cs.countP (fun p => p.2 = a) := by
        apply List.countP_congr
        intro p _
        simp [Matchup.isBetween, h1, Ne.symm hab]
      rw [this, hone cs a hn.2 h3]
    · rw [ih hn.2 h3 h4]
      have : cs.countP ((fun m => m.isBetween a b) ∘ fun c2 : Str × Str => (⟨pairId c.1 c2.1, c.2, c2.2, true, rounds⟩ : Matchup))
          = 0 := by
        rw [List.countP_eq_zero]
        intro p _
        simp [Matchup.isBetween, h1, h2]
      rw [this]

/-! ### The control file -/

theorem initialise_allplayall (players competitors : List Str) (rounds : Option Int) (c : Comp) :
    (Control.allplayall players competitors rounds).initialise = .ok c ↔
      competitors ≠ [] ∧ ∃ codes : List Str, codes.length = competitors.length ∧
        (∀ k (hk : k < codes.length), shortCode k = .ok codes[k]) ∧ (∀ p ∈ competitors, p ∈ players) ∧ competitors.Nodup ∧
        c = ⟨pairMatchups rounds (codes.zip competitors), some competitors⟩ := by
  unfold Control.initialise
  by_cases h0 : competitors = []
  · simp only [h0, if_true, bind, Except.bind]
    constructor
    · intro h; simp at h
    · intro h; simp at h
  · simp only [h0, if_false, bind, Except.bind, pure, Except.pure]
    cases hl : competitorLoop players 0 [] competitors with
    | error e =>
      simp only
      constructor
      · intro h; simp at h
      · rintro ⟨_, codes, h1, h2, h3, h4, _⟩
        have := (competitorLoop_iff players competitors 0 [] (codes.zip competitors)).2
          ⟨codes, h1, by simpa using h2, by simp, h3, by simp, h4⟩
        rw [hl] at this; simp at this
    | ok cs =>
      have := (competitorLoop_iff players competitors 0 [] cs).1 hl
      obtain ⟨codes, h1, h2, h3, h4, _, h5⟩ := this
      simp only [List.nil_append] at h3
      simp only [Nat.zero_add] at h2
      have hz : (codes.zip competitors).map Prod.snd = competitors := by
        rw [List.map_snd_zip]; omega
      constructor
      · intro h
        simp only [Except.ok.injEq] at h
        refine ⟨h0, codes, h1, h2, h4, h5, ?_⟩
        rw [← h, h3, hz]
      · rintro ⟨_, codes', h1', h2', _, _, rfl⟩
        have : codes' = codes := by
          apply List.ext_getElem (by omega)
          intro k hk hk'
          have e1 := h2' k hk
          rw [h2 k hk'] at e1
          simpa using e1.symm
        simp only [this, h3, hz]

/-- C39: which all-play-all control files are accepted: at least one competitor, all of them in the players dictionary,
none twice, and not more than 702. -/
theorem C39_accepted (players competitors : List Str) (rounds : Option Int) :
    (∃ c, (Control.allplayall players competitors rounds).initialise = .ok c) ↔
      competitors ≠ [] ∧ (∀ p ∈ competitors, p ∈ players) ∧ competitors.Nodup ∧ competitors.length ≤ 702 := by
  constructor
  · rintro ⟨c, h⟩
    obtain ⟨h0, codes, h1, h2, h3, h4, _⟩ := (initialise_allplayall ..).1 h
    refine ⟨h0, h3, h4, ?_⟩
    by_contra hc
    have := h2 702 (by omega)
    rw [(C39_short_codes 702).2.1 (Nat.le_refl _)] at this
    simp at this
  · rintro ⟨h0, h3, h4, h5⟩
    let f : Nat → Str := fun k => match shortCode k with | .ok s => s | .error _ => []
    refine ⟨_, (initialise_allplayall ..).2 ⟨h0, (List.range competitors.length).map f, by simp, ?_, h3, h4, rfl⟩⟩
    intro k hk
    simp only [List.length_map, List.length_range] at hk
    obtain ⟨s, hs, _⟩ := (C39_short_codes k).1 (by omega)
    simp [f, hs]

theorem codes_facts {codes : List Str} (h2 : ∀ k (hk : k < codes.length), shortCode k = .ok codes[k]) :
    codes.Nodup ∧ ∀ s ∈ codes, ∀ c ∈ s, c.isUpper = true := by
  constructor
  · rw [List.nodup_iff_pairwise_ne, List.pairwise_iff_getElem]
    intro i j hi hj hij he
    have h := (C39_short_codes i).2.2 j _ (h2 i hi) ((h2 j hj).trans (by rw [he]))
    omega
  · intro s hs c hc
    obtain ⟨k, hk, rfl⟩ := List.getElem_of_mem hs
    have h702 : k < 702 := by
      by_contra hcon
      have := h2 k hk
      rw [(C39_short_codes k).2.1 (by omega)] at this; simp at this
    obtain ⟨s, hs', hu, _⟩ := (C39_short_codes k).1 h702
    rw [h2 k hk] at hs'
    simp only [Except.ok.injEq] at hs'
    exact hu c (hs' ▸ hc)

/-- C39: in an all-play-all: every two different competitors meet in exactly one matchup; no matchup is of anything else;
all matchups have the same number of games, and different ids, and are alternating. -/
theorem C39_pairs (players competitors : List Str) (rounds : Option Int) (c : Comp)
    (h : (Control.allplayall players competitors rounds).initialise = .ok c) :
    c.competitors = some competitors ∧
    (∀ a ∈ competitors, ∀ b ∈ competitors, a ≠ b → c.matchups.countP (fun m => m.isBetween a b) = 1) ∧
    (∀ m ∈ c.matchups, m.player1 ∈ competitors ∧ m.player2 ∈ competitors ∧ m.player1 ≠ m.player2 ∧
      m.numberOfGames = rounds ∧ m.alternating = true) ∧
    (c.matchups.map Matchup.id).Nodup := by
  obtain ⟨h0, codes, h1, h2, h3, h4, rfl⟩ := (initialise_allplayall ..).1 h
  have hz : (codes.zip competitors).map Prod.snd = competitors := by rw [List.map_snd_zip]; omega
  have hz1 : (codes.zip competitors).map Prod.fst = codes := by rw [List.map_fst_zip]; omega
  obtain ⟨hc1, hc2⟩ := codes_facts h2
  refine ⟨rfl, ?_, ?_, ?_⟩
  · intro a ha b hb hab
    exact count_pairs_one rounds _ a b hab (hz.symm ▸ h4) (hz.symm ▸ ha) (hz.symm ▸ hb)
  · intro m hm
    rw [mem_pairMatchups] at hm
    obtain ⟨i, j, hj, hij, rfl⟩ := hm
    simp only [List.length_zip] at hj
    have e1 : ∀ k (hk : k < (codes.zip competitors).length), (codes.zip competitors)[k].2 = competitors[k]'(by simp at hk; omega) := by
      intro k hk; simp
    refine ⟨?_, ?_, ?_, rfl, rfl⟩
    · show (codes.zip competitors)[i].2 ∈ _
      rw [e1]; exact List.getElem_mem _
    · show (codes.zip competitors)[j].2 ∈ _
      rw [e1]; exact List.getElem_mem _
    · show (codes.zip competitors)[i].2 ≠ (codes.zip competitors)[j].2
      rw [e1, e1]
      intro he
      have := (List.Nodup.getElem_inj_iff h4).1 he
      omega
  · apply nodup_pairIds
    · rw [hz1]; exact hc1
    · intro p hp
      exact hc2 p.1 (by rw [← hz1]; exact List.mem_map.2 ⟨p, hp, rfl⟩)

/-- C39: the number of matchups is n(n-1)/2, so the number of games is rounds·n·(n-1)/2, which is what
count_games_expected() says (which needs at least two competitors; see `C39_one_competitor`). -/
theorem C39_count (players competitors : List Str) (rounds : Int) (c : Comp)
    (h : (Control.allplayall players competitors (some rounds)).initialise = .ok c) :
    2 * c.matchups.length = competitors.length * (competitors.length - 1) ∧
    (2 ≤ competitors.length → countGamesExpected c = some (some (c.matchups.map (fun m => m.numberOfGames.getD 0)).sum)) := by
  have hp := C39_pairs players competitors (some rounds) c h
  obtain ⟨h0, codes, h1, h2, h3, h4, rfl⟩ := (initialise_allplayall ..).1 h
  have hlen := length_pairMatchups (some rounds) (codes.zip competitors)
  have hz : (codes.zip competitors).length = competitors.length := by simp; omega
  rw [hz] at hlen
  refine ⟨hlen, ?_⟩
  intro hn
  have hsum : ((pairMatchups (some rounds) (codes.zip competitors)).map (fun m => m.numberOfGames.getD 0)).sum
      = (pairMatchups (some rounds) (codes.zip competitors)).length * rounds := by
    have : (pairMatchups (some rounds) (codes.zip competitors)).map (fun m => m.numberOfGames.getD 0)
        = List.replicate (pairMatchups (some rounds) (codes.zip competitors)).length rounds := by
      rw [List.eq_replicate_iff]
      refine ⟨by simp, ?_⟩
      intro x hx
      rw [List.mem_map] at hx
      obtain ⟨m, hm, rfl⟩ := hx
      rw [(hp.2.2.1 m hm).2.2.2.1]; rfl
    rw [this]; simp
  show countGamesExpected ⟨_, _⟩ = some (some (((pairMatchups (some rounds) (codes.zip competitors)).map _).sum))
  rw [hsum]
  unfold countGamesExpected
  cases hm : pairMatchups (some rounds) (codes.zip competitors) with
  | nil =>
    rw [hm] at hlen
    have : 0 < competitors.length * (competitors.length - 1) := Nat.mul_pos (by omega) (by omega)
    rw [← hlen] at this
    simp at this
  | cons m ms =>
    have e : m.numberOfGames = some rounds := (hp.2.2.1 m (by rw [hm]; simp)).2.2.2.1
    simp only [e, Option.map_some, Option.some.injEq]
    rw [hm] at hlen
    have hl' : (2 : Int) * ((m :: ms).length : Int) = (competitors.length : Int) * ((competitors.length : Int) - 1) := by
      have : ((competitors.length - 1 : Nat) : Int) = (competitors.length : Int) - 1 := by omega
      rw [← this]; exact_mod_cast hlen
    rw [show rounds * (competitors.length : Int) * ((competitors.length : Int) - 1)
      = 2 * (((m :: ms).length : Int) * rounds) by rw [mul_assoc, ← hl']; ring]
    exact Int.mul_ediv_cancel_left _ (by decide)

/-- C39: adding competitors at the end of the list (which set_status() allows) leaves the existing matchups alone. -/
theorem C39_extended (players players' competitors more : List Str) (rounds : Option Int) (c c' : Comp)
    (h : (Control.allplayall players competitors rounds).initialise = .ok c)
    (h' : (Control.allplayall players' (competitors ++ more) rounds).initialise = .ok c') :
    ∀ m ∈ c.matchups, m ∈ c'.matchups := by
  obtain ⟨_, codes, h1, h2, _, _, rfl⟩ := (initialise_allplayall ..).1 h
  obtain ⟨_, codes', h1', h2', _, _, rfl⟩ := (initialise_allplayall ..).1 h'
  intro m hm
  rw [mem_pairMatchups] at hm ⊢
  obtain ⟨i, j, hj, hij, rfl⟩ := hm
  simp only [List.length_append] at h1'
  simp only [List.length_zip] at hj
  have key : ∀ k (hk : k < competitors.length), (codes.zip competitors)[k]'(by simp; omega)
      = (codes'.zip (competitors ++ more))[k]'(by simp; omega) := by
    intro k hk
    rw [List.getElem_zip, List.getElem_zip, List.getElem_append_left hk]
    have e1 := h2 k (by omega)
    rw [h2' k (by omega)] at e1
    simp only [Except.ok.injEq] at e1
    rw [e1]
  refine ⟨i, j, by simp; omega, hij, ?_⟩
  rw [key i (by omega), key j (by omega)]

/-- C39: with one competitor there are no matchups, and count_games_expected() is an error (an IndexError in the code). -/
theorem C39_one_competitor (players : List Str) (a : Str) (rounds : Option Int) (c : Comp)
    (h : (Control.allplayall players [a] rounds).initialise = .ok c) : c.matchups = [] ∧ countGamesExpected c = none := by
  obtain ⟨_, codes, h1, h2, _, _, rfl⟩ := (initialise_allplayall ..).1 h
  have hp : pairMatchups rounds (codes.zip [a]) = [] := by
    cases codes with
    | nil => rfl
    | cons x xs => cases xs <;> simp [pairMatchups]
  exact ⟨hp, by unfold countGamesExpected; simp only [hp]⟩

theorem C39_witness :
    let p := ["x".toList, "y".toList, "z".toList]
    ∃ c, (Control.allplayall p p (some 10)).initialise = .ok c ∧ countGamesExpected c = some (some 30) ∧
      c.matchups.map Matchup.id = ["AvB".toList, "AvC".toList, "BvC".toList] := by
  refine ⟨_, rfl, by decide, by decide⟩

/-! ### Playoffs -/

/-- The matchup made for the i'th Matchup in a playoff's control file. -/
def MatchupConfig.gives (c : MatchupConfig) (i : Nat) (m : Matchup) : Prop :=
  m.id = c.id.getD (strInt i) ∧ m.player1 = c.player1 ∧
  m.player2 = (if c.player1 = c.player2 then c.player2 ++ "#2".toList else c.player2) ∧
  m.alternating = c.alternating ∧ m.numberOfGames = c.numberOfGames

theorem matchupFromConfig_ok {players : List Str} {i : Nat} {c : MatchupConfig} {m : Matchup} {pl : List Str}
    (h : matchupFromConfig players i c = .ok (m, pl)) : c.gives i m ∧ c.player1 ∈ players ∧ c.player2 ∈ players ∧
      pl = setAdd players m.player2 := by
  unfold matchupFromConfig at h
  cases hid : matchupIdOf i c.id with
  | error e => rw [hid] at h; simp [bind, Except.bind] at h
  | ok id =>
    rw [hid] at h
    simp only [bind, Except.bind, pure, Except.pure] at h
    split at h
    · simp at h
    · split at h
      · simp at h
      · rename_i h1 h2
        have h1' : c.player1 ∈ players := by
          by_contra hc; simp [hc] at h1
        have h2' : c.player2 ∈ players := by
          by_contra hc; simp [hc] at h2
        simp only [Except.ok.injEq, Prod.mk.injEq] at h
        obtain ⟨rfl, rfl⟩ := h
        refine ⟨⟨?_, rfl, ?_, rfl, rfl⟩, h1', h2', rfl⟩
        · unfold matchupIdOf interpretIdentifier at hid
          cases hc : c.id with
          | none => rw [hc] at hid; simp only [Except.ok.injEq] at hid; simp [hid]
          | some s =>
            rw [hc] at hid
            simp only at hid
            split at hid
            · simp only [Except.ok.injEq] at hid; simp [hid]
            · simp at hid
        · unfold clonePlayer; rfl

theorem playoffLoop_ok (configs : List MatchupConfig) : ∀ (i : Nat) (players : List Str) (acc ms : List Matchup),
    playoffLoop i players acc configs = .ok ms → (acc.map Matchup.id).Nodup →
    ∃ l : List Matchup, ms = acc ++ l ∧ l.length = configs.length ∧
      (∀ k (hk : k < l.length) (hk' : k < configs.length), configs[k].gives (i + k) l[k]) ∧ (ms.map Matchup.id).Nodup := by
  induction configs with
  | nil =>
    intro i players acc ms h hn
    simp only [playoffLoop, Except.ok.injEq] at h
    exact ⟨[], by simp [h], rfl, by simp, h ▸ hn⟩
  | cons c cs ih =>
    intro i players acc ms h hn
    unfold playoffLoop at h
    cases hm : matchupFromConfig players i c with
    | error e => rw [hm] at h; simp [bind, Except.bind] at h
    | ok r =>
      obtain ⟨m, pl⟩ := r
      rw [hm] at h
      simp only [bind, Except.bind, pure, Except.pure] at h
      obtain ⟨hg, _⟩ := matchupFromConfig_ok hm
      by_cases hd : m.id ∈ acc.map Matchup.id
      · simp [hd] at h
      · simp only [hd, if_false] at h
        obtain ⟨l, rfl, hlen, hl, hnd⟩ := ih _ _ _ _ h (by
          rw [List.map_append, List.nodup_append]
          refine ⟨hn, by simp, ?_⟩
          intro x hx y hy hxy
          simp at hy
          subst hy; subst hxy
          exact hd hx)
        refine ⟨m :: l, by simp, by simp [hlen], ?_, hnd⟩
        intro k hk hk'
        cases k with
        | zero => exact hg
        | succ k =>
          have := hl k (by simpa using hk) (by simpa using hk')
          rw [show i + (k+1) = i + 1 + k by omega]
          exact this

/-- C39: a playoff has one matchup for each Matchup in its control file, in order, with distinct ids, and never between a
player and itself. -/
theorem C39_playoff (players : List Str) (configs : List MatchupConfig) (c : Comp)
    (h : (Control.playoff players configs).initialise = .ok c) :
    configs ≠ [] ∧ c.competitors = none ∧ c.matchups.length = configs.length ∧
    (∀ k (hk : k < c.matchups.length) (hk' : k < configs.length), configs[k].gives k c.matchups[k]) ∧
    (c.matchups.map Matchup.id).Nodup ∧ (∀ m ∈ c.matchups, m.player1 ≠ m.player2) := by
  unfold Control.initialise at h
  by_cases h0 : configs = []
  · simp [h0, bind, Except.bind] at h
  · simp only [h0, if_false, bind, Except.bind, pure, Except.pure] at h
    cases hl : playoffLoop 0 players [] configs with
    | error e => rw [hl] at h; simp at h
    | ok ms =>
      rw [hl] at h
      simp only [Except.ok.injEq] at h
      subst h
      obtain ⟨l, hms, hlen, hg, hnd⟩ := playoffLoop_ok configs 0 players [] ms hl (by simp)
      simp only [List.nil_append] at hms
      subst hms
      refine ⟨h0, rfl, hlen, ?_, hnd, ?_⟩
      · intro k hk hk'
        have := hg k hk hk'
        rwa [Nat.zero_add] at this
      · intro m hm
        obtain ⟨k, hk, rfl⟩ := List.getElem_of_mem hm
        obtain ⟨_, h1, h2, _⟩ := hg k hk (hlen ▸ hk)
        rw [h1, h2]
        split
        · rename_i he
          rw [he]
          intro hc
          have := congrArg List.length hc
          simp at this
        · assumption

theorem C39_playoff_witness :
    let p := ["x".toList, "y".toList]
    ∃ c, (Control.playoff p [⟨none, "x".toList, "y".toList, true, some 5⟩, ⟨some "q".toList, "x".toList, "x".toList, false, none⟩]).initialise = .ok c ∧
      c.matchups = [⟨"0".toList, "x".toList, "y".toList, true, some 5⟩, ⟨"q".toList, "x".toList, "x#2".toList, false, none⟩] := by
  refine ⟨_, rfl, by decide⟩

/-- C39: a status can be loaded with a changed control file only if the competitors it was saved with are still there, in
the same places (new ones can only be added at the end).  So each of the old matchups is still between the same players. -/
theorem C39_reload (players players' competitors competitors' : List Str) (rounds rounds' : Option Int) (c c' : Comp)
    (h : (Control.allplayall players competitors rounds).initialise = .ok c)
    (h' : (Control.allplayall players' competitors' rounds').initialise = .ok c') (t t' : State) (ht : t.comp = c)
    (hl : State.load c' t.save = .ok t') :
    (∃ more, competitors' = competitors ++ more) ∧
    ∀ m ∈ c.matchups, ∃ m' ∈ c'.matchups, m'.id = m.id ∧ m'.player1 = m.player1 ∧ m'.player2 = m.player2 := by
  have e1 := (C39_pairs _ _ _ _ h).1
  have e2 := (C39_pairs _ _ _ _ h').1
  have hpre : ∃ more, competitors' = competitors ++ more := by
    unfold State.load at hl
    cases hcc : checkCompetitors c' t.save with
    | error e => rw [hcc] at hl; cases hl
    | ok u =>
      unfold checkCompetitors State.save at hcc
      rw [e2] at hcc
      simp only [ht, e1] at hcc
      split at hcc
      · cases hcc
      · split at hcc
        · cases hcc
        · rename_i hn
          refine ⟨competitors'.drop competitors.length, ?_⟩
          have : competitors'.take competitors.length = competitors := by
            by_contra hne
            exact hn hne
          calc competitors' = competitors'.take competitors.length ++ competitors'.drop competitors.length := (List.take_append_drop _ _).symm
            _ = _ := by rw [this]
  refine ⟨hpre, ?_⟩
  obtain ⟨more, rfl⟩ := hpre
  have ha := (C39_accepted players' (competitors ++ more) rounds).2 ((C39_accepted players' (competitors ++ more) rounds').1 ⟨c', h'⟩)
  obtain ⟨c'', h''⟩ := ha
  intro m hm
  have hm'' := C39_extended players players' competitors more rounds c c'' h h'' m hm
  obtain ⟨_, codes, k1, k2, _, _, rfl⟩ := (initialise_allplayall ..).1 h'
  obtain ⟨_, codes', k1', k2', _, _, rfl⟩ := (initialise_allplayall ..).1 h''
  have hcodes : codes' = codes := by
    apply List.ext_getElem (by omega)
    intro k hk hk'
    have := k2' k hk
    rw [k2 k hk'] at this
    simpa using this.symm
  subst hcodes
  simp only at hm''
  rw [mem_pairMatchups] at hm''
  obtain ⟨i, j, hj, hij, rfl⟩ := hm''
  exact ⟨_, (mem_pairMatchups ..).2 ⟨i, j, hj, hij, rfl⟩, rfl, rfl, rfl⟩

/-! ### Identifiers -/

/-- Printable ASCII characters which can't be in a player's code or a matchup's id. -/
def forbiddenChars : List Char := ['"', '#', '\'', '(', ')', '/', '@', '[', '\\', ']', '`', '{', '|', '}']

theorem isIdentChar_iff (c : Char) : isIdentChar c = true ↔ 33 ≤ c.toNat ∧ c.toNat ≤ 126 ∧ c ∉ forbiddenChars := by
  by_cases h : c.toNat < 128
  · have key : ∀ n < 128, isIdentChar (Char.ofNat n) = true ↔ 33 ≤ (Char.ofNat n).toNat ∧ (Char.ofNat n).toNat ≤ 126 ∧ Char.ofNat n ∉ forbiddenChars := by
      decide +kernel
    have := key c.toNat h
    rwa [Char.ofNat_toNat] at this
  · constructor
    · intro hc
      exfalso
      unfold isIdentChar at hc
      rw [Bool.or_eq_true] at hc
      rcases hc with hc | hc
      · simp only [Char.isAlphanum, Char.isAlpha, Char.isUpper, Char.isLower, Char.isDigit, Bool.or_eq_true, Bool.and_eq_true, decide_eq_true_eq] at hc
        have : c.val.toNat < 128 := by
          rcases hc with (hc | hc) | hc
          · have : c.val.toNat ≤ 90 := hc.2
            omega
          · have : c.val.toNat ≤ 122 := hc.2
            omega
          · have : c.val.toNat ≤ 57 := hc.2
            omega
        exact h this
      · have hm : c ∈ "-!$%&*+,.:;<=>?^_~".toList := by simpa using hc
        have hall : ∀ d ∈ "-!$%&*+,.:;<=>?^_~".toList, d.toNat < 128 := by decide
        exact h (hall c hm)
    · rintro ⟨_, h2, _⟩
      omega

/-- C39: which player codes and matchup ids are accepted: nonempty, of printable ASCII characters other than the space and
the forbidden ones. -/
theorem C39_identifiers (s r : Str) :
    interpretIdentifier s = .ok r ↔ r = s ∧ s ≠ [] ∧ ∀ c ∈ s, 33 ≤ c.toNat ∧ c.toNat ≤ 126 ∧ c ∉ forbiddenChars := by
  unfold interpretIdentifier
  have : (s.all isIdentChar = true) ↔ ∀ c ∈ s, 33 ≤ c.toNat ∧ c.toNat ≤ 126 ∧ c ∉ forbiddenChars := by
    rw [List.all_eq_true]
    exact ⟨fun h c hc => (isIdentChar_iff c).1 (h c hc), fun h c hc => (isIdentChar_iff c).2 (h c hc)⟩
  split
  · rename_i h
    rw [this] at h
    constructor
    · intro e; cases e; exact ⟨rfl, h⟩
    · rintro ⟨rfl, _⟩; rfl
  · rename_i h
    rw [this] at h
    constructor
    · intro e; cases e
    · rintro ⟨_, h'⟩; exact absurd h' h

/-- C39: so the clone of a player for a matchup against itself can't be confused with another player, nor with the clone
of another player. -/
theorem C39_clone (players : List Str) (h : ∀ p ∈ players, ∃ s, interpretIdentifier s = .ok p) (p : Str) :
    clonePlayer p p ∉ players ∧ ∀ q, clonePlayer q q = clonePlayer p p → q = p := by
  have e : ∀ q : Str, clonePlayer q q = q ++ ['#', '2'] := fun q => by unfold clonePlayer; rw [if_pos rfl]
  constructor
  · intro hm
    obtain ⟨s, hs⟩ := h _ hm
    obtain ⟨rfl, _, h3⟩ := (C39_identifiers _ _).1 hs
    have := (h3 '#' (by rw [e]; simp)).2.2
    exact this (by decide)
  · intro q hq
    rw [e, e] at hq
    exact List.append_cancel_right hq

/-- C39: non-vacuity. -/
theorem C39_identifiers_witness : interpretIdentifier "gnugo-l1_v3.8".toList = .ok "gnugo-l1_v3.8".toList ∧
    interpretIdentifier "gnugo#2".toList = .error .controlFileError ∧ interpretIdentifier "a b".toList = .error .controlFileError ∧
    clonePlayer "x".toList "x".toList = "x#2".toList := by decide +kernel

end Gomill.Tourn
