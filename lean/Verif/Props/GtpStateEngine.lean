import Verif.Model.GtpStateEngine
import Verif.Spec.GtpStateEngine
import Verif.Props.GtpTold
import Verif.Props.AsciiBoard
import Verif.Props.SgfGrammar
import Verif.Props.GtpLockstep
import Verif.Props.GtpSession
/-
C94: which commands to a Gtp_state succeed, which are refused, and which break.
-/
namespace Gomill.Gtp
open Py Go Spec

/-- `A`: the command should succeed, `B`: it should break. -/
def Verdict (A B : Prop) (o : Outcome) : Prop :=
  (A ∧ ¬ B ∧ ∃ r, o = .value r) ∨ (B ∧ ¬ A ∧ ∃ tb, o = .exception tb) ∨ (¬ A ∧ ¬ B ∧ ∃ m, o = .gtpError m)

theorem int_unique {a : Str} {j k : Int} (h : IsGtpInt a j) (h' : IsGtpInt a k) : j = k := by
  rw [← C62_int] at h h'
  rw [h] at h'
  exact Option.some.inj h'

theorem colour_unique {a : Str} {c d : Colour} (h : IsColour a c) (h' : IsColour a d) : c = d := by
  rw [← C62_colour] at h h'
  rw [h] at h'
  exact Option.some.inj h'

theorem no_int {a : Str} (h : interpretInt a = none) (k : Int) : ¬ IsGtpInt a k := by
  intro hk
  rw [← C62_int, h] at hk
  exact nomatch hk

theorem no_colour {a : Str} (h : interpretColour a = none) (k : Colour) : ¬ IsColour a k := by
  intro hk
  rw [← C62_colour, h] at hk
  exact nomatch hk

theorem empty_iff {n : Nat} {b : Board} (h : ReachableBoard n b) : b.isEmpty = true ↔ Empty b.pos := h.inv.flag

theorem vertex_iff {n : Nat} (h2 : 2 ≤ n) (v : Str) (m : Option Pt) : moveFromVertex v n = .ok m ↔ IsVertex n v m := by
  cases m with
  | none =>
    rw [C14_pass_characterisation]
    unfold IsVertex
    constructor
    · rintro ⟨⟨_, h⟩, h'⟩; exact ⟨by omega, h'⟩
    · rintro ⟨h, h'⟩; exact ⟨⟨by omega, by omega⟩, h'⟩
  | some p =>
    rw [C14_characterisation]
    unfold IsVertex OnBoard
    constructor
    · rintro ⟨⟨_, h⟩, h', h''⟩; exact ⟨by omega, h', h''⟩
    · rintro ⟨h, h', h''⟩; exact ⟨⟨by omega, by omega⟩, h', h''⟩

theorem maxFixed_eq (n : Nat) : (25 < n ∧ Handicap.maxFixed n = .error .valueError ∧ layoutMax n = 0) ∨ (n ≤ 25 ∧ Handicap.maxFixed n = .ok (layoutMax n)) := by
  unfold Handicap.maxFixed layoutMax
  by_cases h7 : n ≤ 7
  · right
    exact ⟨by omega, by rw [if_pos (by omega), if_pos (by omega)]⟩
  · by_cases h25 : 25 < n
    · left
      exact ⟨h25, by rw [if_neg (by omega), if_pos (by omega)], by rw [if_pos (by omega)]⟩
    · right
      refine ⟨by omega, ?_⟩
      have h1 : ¬ (n : Int) ≤ 7 := by omega
      have h2 : ¬ (n : Int) > 25 := by omega
      have h3 : ¬ (n < 8 ∨ 25 < n) := by omega
      have hm : ((n : Int).fmod 2 = 0 ∨ (n : Int) = 7) ↔ n % 2 = 0 := by
        rw [Int.fmod_eq_emod_of_nonneg _ (by omega)]
        omega
      rw [if_neg h1, if_neg h2, if_neg h3]
      by_cases he : n % 2 = 0
      · rw [if_pos (hm.2 he), if_pos he]
      · rw [if_neg (fun h => he (hm.1 h)), if_neg he]

theorem layout_iff (n : Nat) (k : Int) (h2 : 2 ≤ k) : (∃ m, Handicap.maxFixed n = .ok m ∧ 2 ≤ k ∧ k ≤ m) ↔ k ≤ layoutMax n := by
  rcases maxFixed_eq n with ⟨_, h, h0⟩ | ⟨_, h⟩
  · rw [h, h0]
    constructor
    · rintro ⟨m, h, _⟩; exact nomatch h
    · intro h; omega
  · rw [h]
    constructor
    · rintro ⟨m, h, _, h'⟩
      injection h with h
      rw [h]; exact h'
    · intro h'; exact ⟨_, rfl, h2, h'⟩

section
variable {env : Env} {n : Nat} {s : GS}

theorem boardsize_verdict (hi : Inv n s) (args : List Str) :
    Verdict (Succeeds env n s .boardsize args) (Breaks env n s .boardsize args) (s.boardsize args).2 := by
  have hb : ¬ Breaks env n s .boardsize args := nofun
  unfold GS.boardsize err
  cases args with
  | nil => exact .inr (.inr ⟨nofun, hb, _, rfl⟩)
  | cons a r =>
    simp only
    cases hk : interpretInt a with
    | none => exact .inr (.inr ⟨fun h => (by cases h with | boardsize hk' _ => exact no_int hk _ hk'), hb, _, rfl⟩)
    | some k =>
      have hk' := (C62_int a k).1 hk
      by_cases hm : k ∈ s.acceptable
      · have h2 := hi.acc k hm
        obtain ⟨s1, h3, h4⟩ := reset_spec (n := k.toNat) (s := { s with boardSize := k }) (by simp only; omega) (by omega)
        simp only
        rw [if_neg (by simpa using hm), h3]
        exact .inl ⟨.boardsize hk' hm, hb, _, rfl⟩
      · simp only
        rw [if_pos hm]
        refine .inr (.inr ⟨fun h => ?_, hb, _, rfl⟩)
        cases h with
        | boardsize hj h => rw [int_unique hj hk'] at h; exact hm h

theorem clearBoard_verdict (hi : Inv n s) (args : List Str) :
    Verdict (Succeeds env n s .clearBoard args) (Breaks env n s .clearBoard args) (s.clearBoard args).2 := by
  obtain ⟨s1, h3, h4⟩ := reset_spec hi.size hi.two
  unfold GS.clearBoard
  rw [h3]
  exact .inl ⟨.clearBoard, nofun, _, rfl⟩

theorem komi_verdict (args : List Str) : Verdict (Succeeds env n s .komi args) (Breaks env n s .komi args) (s.setKomi env args).2 := by
  have hb : ¬ Breaks env n s .komi args := nofun
  unfold GS.setKomi err
  cases args with
  | nil => exact .inr (.inr ⟨nofun, hb, _, rfl⟩)
  | cons a r =>
    simp only
    cases hk : env.readFloat a with
    | none => exact .inr (.inr ⟨fun h => (by cases h with | komi h => rw [hk] at h; exact nomatch h), hb, _, rfl⟩)
    | some k => exact .inl ⟨.komi hk, hb, _, rfl⟩

theorem fixed_verdict (hi : Inv n s) (args : List Str) :
    Verdict (Succeeds env n s .fixedHandicap args) (Breaks env n s .fixedHandicap args) (s.fixedHandicap args).2 := by
  have hb : ¬ Breaks env n s .fixedHandicap args := nofun
  unfold GS.fixedHandicap err
  cases args with
  | nil => exact .inr (.inr ⟨nofun, hb, _, rfl⟩)
  | cons a r =>
    simp only
    cases hk : interpretInt a with
    | none => exact .inr (.inr ⟨fun h => (by cases h with | fixedHandicap hk' => exact no_int hk _ hk'), hb, _, rfl⟩)
    | some k =>
      have hk' := (C62_int a k).1 hk
      simp only
      cases he : s.board.isEmpty with
      | false =>
        refine .inr (.inr ⟨fun h => ?_, hb, _, rfl⟩)
        cases h with
        | fixedHandicap _ he' => rw [(empty_iff hi.board).2 he'] at he; exact nomatch he
      | true =>
        have he' := (empty_iff hi.board).1 he
        simp only [Bool.not_true, Bool.false_eq_true, if_false]
        rw [hi.size]
        rcases C15_handicap_points k n with ⟨m, hm, h2, hkm, l, hl, _⟩ | ⟨hl, hno⟩
        · obtain ⟨b, t, h5, h6, _⟩ := place_points (k' := k) hi he hl
          simp only [hl, h5, h6]
          exact .inl ⟨.fixedHandicap hk' he' h2 ((layout_iff n k h2).1 ⟨m, hm, h2, hkm⟩), hb, _, rfl⟩
        · rw [hl]
          refine .inr (.inr ⟨fun h => ?_, hb, _, rfl⟩)
          cases h with
          | fixedHandicap hj _ h2 hm =>
            obtain rfl := int_unique hj hk'
            exact hno ((layout_iff n _ h2).2 hm)

theorem chooseFree_total (n : Nat) (k : Int) (h2 : 2 ≤ k) :
    (8 ≤ n ∧ n ≤ 25 ∧ ∃ l k', chooseFree k n = .ok l ∧ k' = min k (layoutMax n) ∧ Handicap.points k' n = .ok l) ∨
    ((n < 8 ∨ 25 < n) ∧ chooseFree k n = .error .valueError) := by
  by_cases hn : 8 ≤ n ∧ n ≤ 25
  · left
    have hm : Handicap.maxFixed n = .ok (layoutMax n) := by
      rcases maxFixed_eq n with ⟨h, _⟩ | ⟨_, h⟩
      · omega
      · exact h
    have h4 : 4 ≤ layoutMax n := by
      unfold layoutMax; rw [if_neg (by omega)]; split <;> omega
    refine ⟨hn.1, hn.2, ?_⟩
    rcases C15_handicap_points (min k (layoutMax n)) n with ⟨m, _, _, _, l, hl, _⟩ | ⟨_, hno⟩
    · refine ⟨l, _, ?_, rfl, hl⟩
      unfold chooseFree
      rw [hm]; exact hl
    · exact absurd ⟨_, hm, by omega, by omega⟩ hno
  · right
    refine ⟨by omega, ?_⟩
    unfold chooseFree Handicap.maxFixed
    by_cases h7 : n ≤ 7
    · rw [if_pos (by omega)]
      show Handicap.points (min k 0) n = _
      rcases C15_handicap_points (min k 0) n with ⟨m, _, h, _⟩ | ⟨h, _⟩
      · omega
      · exact h
    · rw [if_neg (by omega), if_pos (by omega)]
      rfl

theorem place_verdict (hi : Inv n s) (args : List Str) :
    Verdict (Succeeds env n s .placeFreeHandicap args) (Breaks env n s .placeFreeHandicap args) (s.placeFreeHandicap args).2 := by
  unfold GS.placeFreeHandicap err exc
  cases args with
  | nil => exact .inr (.inr ⟨nofun, nofun, _, rfl⟩)
  | cons a r =>
    simp only
    cases hk : interpretInt a with
    | none => exact .inr (.inr ⟨fun h => (by cases h with | placeFreeHandicap hk' => exact no_int hk _ hk'),
        fun h => (by cases h with | placeFreeHandicap hk' => exact no_int hk _ hk'), _, rfl⟩)
    | some k =>
      have hk' := (C62_int a k).1 hk
      simp only
      rw [hi.size]
      have hmf : Handicap.maxFree n = (n : Int) * n - 1 := rfl
      have hcast : ((n * n : Nat) : Int) = (n : Int) * n := by push_cast; rfl
      have hnn : 4 ≤ (n : Int) * n := by
        have := hi.two
        have h := Nat.mul_le_mul this this
        omega
      by_cases hr : 2 ≤ k ∧ k ≤ Handicap.maxFree n
      · rw [if_neg (by simpa using hr)]
        cases he : s.board.isEmpty with
        | false =>
          have hne : ¬ Empty s.board.pos := fun he' => by rw [(empty_iff hi.board).2 he'] at he; exact nomatch he
          exact .inr (.inr ⟨fun h => (by cases h with | placeFreeHandicap _ _ _ he' => exact hne he'),
            fun h => (by cases h with | placeFreeHandicap _ _ _ he' => exact hne he'), _, rfl⟩)
        | true =>
          have he' := (empty_iff hi.board).1 he
          simp only [Bool.not_true, Bool.false_eq_true, if_false]
          generalize hk2 : (if k = Handicap.maxFree n then Handicap.maxFree n - 1 else k) = k2
          have h22 : 2 ≤ k2 := by
            rw [← hk2]; split <;> omega
          rcases chooseFree_total n k2 h22 with ⟨h8, h25, l, k', hl, hkk, hp⟩ | ⟨h8, hl⟩
          · obtain ⟨b, t, h5, h6, _⟩ := place_points (k' := k2) hi he hp
            have hlen := (fixed_points hp).2.2.1
            rw [hl]
            simp only
            rw [if_neg (by omega), h5]
            simp only [h6]
            exact .inl ⟨.placeFreeHandicap hk' hr.1 (by omega) he' h8 h25,
              fun h => (by cases h with | placeFreeHandicap _ _ _ _ h => omega), _, rfl⟩
          · rw [hl]
            exact .inr (.inl ⟨.placeFreeHandicap hk' hr.1 (by omega) he' h8,
              fun h => (by cases h with | placeFreeHandicap _ _ _ _ h h' => omega), _, rfl⟩)
      · rw [if_pos hr]
        refine .inr (.inr ⟨fun h => ?_, fun h => ?_, _, rfl⟩)
        · cases h with
          | placeFreeHandicap hj h2 hm =>
            obtain rfl := int_unique hj hk'
            exact hr ⟨h2, by omega⟩
        · cases h with
          | placeFreeHandicap hj h2 hm =>
            obtain rfl := int_unique hj hk'
            exact hr ⟨h2, by omega⟩

theorem vertexPoints_iff (h2 : 2 ≤ n) (args : List Str) (ps : List Pt) :
    vertexPoints n args = some ps ↔ List.Forall₂ (fun v p => IsVertex n v (some p)) args ps := by
  induction args generalizing ps with
  | nil =>
    unfold vertexPoints
    constructor
    · intro h; cases h; exact .nil
    · intro h; cases h; rfl
  | cons v vs ih =>
    unfold vertexPoints
    constructor
    · intro h
      split at h
      · rename_i p l hp hl
        cases h
        exact .cons ((vertex_iff h2 v _).1 hp) ((ih l).1 hl)
      · exact nomatch h
    · intro h
      cases h with
      | cons hp hl =>
        rw [(vertex_iff h2 v _).2 hp, (ih _).2 hl]

theorem freeLoop_err {k : Int} (args : List Str) : ∀ {b : Board} {o : Outcome}, ReachableBoard n b → k = n → freeLoop k b args = .error o → ∃ m, o = .gtpError m := by
  induction args with
  | nil => intro b o _ _ h; exact nomatch h
  | cons v vs ih =>
    intro b o hb hk h
    subst hk
    unfold freeLoop interpretVertex at h
    rcases C14_total v n with hv | ⟨p, hv, hp, _⟩ | hv
    · rw [hv] at h; cases h; exact ⟨_, rfl⟩
    · rw [hv] at h
      obtain ⟨row, col⟩ := p
      simp only at h
      have hp' : OnBoard n (row, col) := by simpa using hp
      by_cases he : b.pos (row, col) = none
      · obtain ⟨ko, b2, hpl⟩ := play_legal (c := .b) hb hp' he
        simp only at hpl
        rw [hpl] at h
        exact ih (reach_play hb hpl) rfl h
      · have hpl : b.play row col .b = .error .valueError := (C06_play_errors hb defaultPops (row, col) .b).2 hp' he
        rw [hpl] at h
        simp only at h
        cases h; exact ⟨_, rfl⟩
    · rw [hv] at h; cases h; exact ⟨_, rfl⟩

theorem setFree_verdict (hi : Inv n s) (args : List Str) :
    Verdict (Succeeds env n s .setFreeHandicap args) (Breaks env n s .setFreeHandicap args) (s.setFreeHandicap args).2 := by
  have hb : ¬ Breaks env n s .setFreeHandicap args := nofun
  unfold GS.setFreeHandicap err exc
  simp only
  rw [hi.size]
  have hmf : Handicap.maxFree n = (n : Int) * n - 1 := rfl
  have hcast : ((n * n : Nat) : Int) = (n : Int) * n := by push_cast; rfl
  by_cases hr : 2 ≤ (args.length : Int) ∧ (args.length : Int) ≤ Handicap.maxFree n
  · rw [if_neg (by simpa using hr)]
    cases he : s.board.isEmpty with
    | false =>
      have hne : ¬ Empty s.board.pos := fun he' => by rw [(empty_iff hi.board).2 he'] at he; exact nomatch he
      exact .inr (.inr ⟨fun h => (by cases h with | setFreeHandicap _ _ _ _ he' => exact hne he'), hb, _, rfl⟩)
    | true =>
      have he' := (empty_iff hi.board).1 he
      simp only [Bool.not_true, Bool.false_eq_true, if_false]
      obtain ⟨f1, f2⟩ := freeLoop_spec (n := n) args [] hi.board (by intro q; simp [he' q]) List.nodup_nil
        (by simp only [List.length_nil]; push_cast; omega)
      cases hf : freeLoop n s.board args with
      | error o =>
        obtain ⟨m, rfl⟩ := freeLoop_err args hi.board rfl hf
        obtain ⟨s1, h3, _⟩ := reset_spec hi.size hi.two
        simp only [h3]
        refine .inr (.inr ⟨fun h => ?_, hb, _, rfl⟩)
        cases h with
        | setFreeHandicap hv hd _ _ _ =>
          exact (f2 _ hf).2 _ ((vertexPoints_iff hi.two _ _).2 hv) ⟨hd, by simp⟩
      | ok b =>
        obtain ⟨ps, h1, _, h3, _⟩ := f1 b hf
        exact .inl ⟨.setFreeHandicap ((vertexPoints_iff hi.two _ _).1 h1) h3 (by omega) (by omega) he', hb, _, rfl⟩
  · rw [if_pos hr]
    refine .inr (.inr ⟨fun h => ?_, hb, _, rfl⟩)
    cases h with
    | setFreeHandicap _ _ h2 hm _ => exact hr ⟨by omega, by omega⟩

theorem play_verdict (hi : Inv n s) (args : List Str) :
    Verdict (Succeeds env n s .play args) (Breaks env n s .play args) (s.play args).2 := by
  have hb : ¬ Breaks env n s .play args := nofun
  unfold GS.play err exc
  rcases args with _ | ⟨a, _ | ⟨v, r⟩⟩
  · exact .inr (.inr ⟨nofun, hb, _, rfl⟩)
  · exact .inr (.inr ⟨nofun, hb, _, rfl⟩)
  · simp only
    cases hc : interpretColour a with
    | none =>
      refine .inr (.inr ⟨fun h => ?_, hb, _, rfl⟩)
      cases h with
      | pass hc' => exact no_colour hc _ hc'
      | play hc' => exact no_colour hc _ hc'
    | some col =>
      have hc' := (C62_colour a col).1 hc
      unfold interpretVertex
      simp only
      rw [hi.size]
      rcases C14_total v n with hv | ⟨p, hv, hp, _⟩ | hv
      · rw [hv]
        exact .inl ⟨.pass hc' ((vertex_iff hi.two _ _).1 hv), hb, _, rfl⟩
      · rw [hv]
        obtain ⟨row, cl⟩ := p
        have hp' : OnBoard n (row, cl) := by simpa using hp
        have hv' := (vertex_iff hi.two _ _).1 hv
        simp only
        by_cases he : s.board.pos (row, cl) = none
        · obtain ⟨ko, b2, hpl⟩ := play_legal (c := col) hi.board hp' he
          simp only at hpl
          simp only [hpl]
          exact .inl ⟨.play hc' hv' he, hb, _, rfl⟩
        · have hpl : s.board.play row cl col = .error .valueError := (C06_play_errors hi.board defaultPops (row, cl) col).2 hp' he
          simp only [hpl]
          refine .inr (.inr ⟨fun h => ?_, hb, _, rfl⟩)
          cases h with
          | pass _ hv2 => rw [← vertex_iff hi.two, hv] at hv2; exact nomatch hv2
          | play _ hv2 he2 =>
            rw [← vertex_iff hi.two, hv] at hv2
            injection hv2 with hv2
            injection hv2 with hv2
            rw [hv2] at he
            exact he he2
      · rw [hv]
        refine .inr (.inr ⟨fun h => ?_, hb, _, rfl⟩)
        cases h with
        | pass _ hv2 => rw [← vertex_iff hi.two, hv] at hv2; exact nomatch hv2
        | play _ hv2 he2 => rw [← vertex_iff hi.two, hv] at hv2; exact nomatch hv2

/-- The three commands which ask for a move. -/
theorem answer_verdict {col : Colour} {claim fr : Bool} {g : Option GenResult} {s' : GS} {o : Outcome} (h : AnswerSpec n s col claim fr g s' o) :
    Verdict (∃ r, g = some r ∧ UsableAnswer n s.board.pos claim fr r) (Nonsense n claim fr g) o := by
  cases g with
  | none =>
    obtain ⟨_, rfl⟩ := h
    exact .inr (.inl ⟨.inl rfl, (fun ⟨_, h, _⟩ => nomatch h), _, rfl⟩)
  | some g =>
    unfold AnswerSpec at h
    simp only at h
    have hnon : ∀ {X : Prop}, (X → ¬ (claim = true ∧ g.claim = true) → g.resign = false → g.passMove = false →
        (g.move = none ∨ ∃ p, g.move = some p ∧ (¬ OnBoard 25 p ∨ (fr = false ∧ ¬ OnBoard n p))) → False) → X → ¬ Nonsense n claim fr (some g) := by
      intro X hX x hn
      rcases hn with hn | ⟨r, hr, h1, h2, h3, h4⟩
      · exact nomatch hn
      · cases hr; exact hX x h1 h2 h3 h4
    split at h
    · rename_i hc
      obtain ⟨_, rfl⟩ := h
      exact .inl ⟨⟨g, rfl, .inl hc⟩, hnon (X := True) (fun _ h1 _ _ _ => h1 hc) trivial, _, rfl⟩
    · rename_i hc
      split at h
      · rename_i hr
        obtain ⟨_, rfl⟩ := h
        exact .inl ⟨⟨g, rfl, .inr (.inl hr)⟩, hnon (X := True) (fun _ _ h2 _ _ => by rw [hr] at h2; exact nomatch h2) trivial, _, rfl⟩
      · rename_i hr
        split at h
        · rename_i hp
          obtain ⟨rfl, _⟩ := h
          exact .inl ⟨⟨g, rfl, .inr (.inr (.inl hp))⟩, hnon (X := True) (fun _ _ _ h3 _ => by rw [hp] at h3; exact nomatch h3) trivial, _, rfl⟩
        · rename_i hp
          have hnu : ∀ {P : Pt → Prop}, (∀ p, g.move = some p → OnBoard 25 p → (fr = true ∨ (OnBoard n p ∧ s.board.pos p = none)) → False) →
              ¬ ∃ r, some g = some r ∧ UsableAnswer n s.board.pos claim fr r := by
            rintro P hP ⟨r, hr', hu⟩
            cases hr'
            rcases hu with hu | hu | hu | ⟨p, h1, h2, h3⟩
            · exact hc hu
            · exact hr hu
            · exact hp hu
            · exact hP p h1 h2 h3
          simp only [Bool.not_eq_true] at hr hp
          cases hm : g.move with
          | none =>
            rw [hm] at h
            obtain ⟨_, rfl⟩ := h
            refine .inr (.inl ⟨.inr ⟨g, rfl, hc, hr, hp, .inl hm⟩, ?_, _, rfl⟩)
            exact hnu (P := fun _ => True) (fun p h1 _ _ => by rw [hm] at h1; exact nomatch h1)
          | some p =>
            rw [hm] at h
            simp only at h
            rcases h with ⟨h1, _, rfl⟩ | ⟨v, hv, h⟩
            · refine .inr (.inl ⟨.inr ⟨g, rfl, hc, hr, hp, .inr ⟨p, hm, .inl h1⟩⟩, ?_, _, rfl⟩)
              exact hnu (P := fun _ => True) (fun p' h2 h3 _ => by rw [hm] at h2; cases h2; exact h1 h3)
            · have h25 : OnBoard 25 p := (C14_format_total p).1.2 ⟨v, hv⟩
              split at h
              · rename_i hf
                obtain ⟨_, rfl⟩ := h
                refine .inl ⟨⟨g, rfl, .inr (.inr (.inr ⟨p, hm, h25, .inl hf⟩))⟩, ?_, _, rfl⟩
                refine hnon (X := True) (fun _ _ _ _ h4 => ?_) trivial
                rcases h4 with h4 | ⟨p', h4, h5⟩
                · rw [hm] at h4; exact nomatch h4
                · rw [hm] at h4; cases h4
                  rcases h5 with h5 | ⟨h5, _⟩
                  · exact h5 h25
                  · rw [hf] at h5; exact nomatch h5
              · rename_i hf
                simp only [Bool.not_eq_true] at hf
                rcases h with ⟨h1, _, rfl⟩ | ⟨h1, h2, _, rfl⟩ | ⟨h1, h2, rfl, _⟩
                · refine .inr (.inl ⟨.inr ⟨g, rfl, hc, hr, hp, .inr ⟨p, hm, .inr ⟨hf, h1⟩⟩⟩, ?_, _, rfl⟩)
                  refine hnu (P := fun _ => True) (fun p' h2 _ h3 => ?_)
                  rw [hm] at h2; cases h2
                  rcases h3 with h3 | ⟨h3, _⟩
                  · rw [hf] at h3; exact nomatch h3
                  · exact h1 h3
                · refine .inr (.inr ⟨?_, ?_, _, rfl⟩)
                  · refine hnu (P := fun _ => True) (fun p' h3 _ h4 => ?_)
                    rw [hm] at h3; cases h3
                    rcases h4 with h4 | ⟨_, h4⟩
                    · rw [hf] at h4; exact nomatch h4
                    · exact h2 h4
                  · refine hnon (X := True) (fun _ _ _ _ h4 => ?_) trivial
                    rcases h4 with h4 | ⟨p', h4, h5⟩
                    · rw [hm] at h4; exact nomatch h4
                    · rw [hm] at h4; cases h4
                      rcases h5 with h5 | ⟨_, h5⟩
                      · exact h5 h25
                      · exact h5 h1
                · refine .inl ⟨⟨g, rfl, .inr (.inr (.inr ⟨p, hm, h25, .inr ⟨h1, h2⟩⟩))⟩, ?_, _, rfl⟩
                  refine hnon (X := True) (fun _ _ _ _ h4 => ?_) trivial
                  rcases h4 with h4 | ⟨p', h4, h5⟩
                  · rw [hm] at h4; exact nomatch h4
                  · rw [hm] at h4; cases h4
                    rcases h5 with h5 | ⟨_, h5⟩
                    · exact h5 h25
                    · exact h5 h1

theorem Verdict.congr {A B A' B' : Prop} {o : Outcome} (h : Verdict A B o) (ha : A ↔ A') (hb : B ↔ B') : Verdict A' B' o := by
  unfold Verdict at *
  rw [← ha, ← hb]
  exact h

theorem genmove_verdict (hi : Inv n s) (c : Cmd) (hc : c = .genmove ∨ c = .genmoveEx ∨ c = .regGenmove) (args : List Str) :
    Verdict (Succeeds env n s c args) (Breaks env n s c args) (s.step env c args).2 := by
  cases args with
  | nil =>
    rcases hc with rfl | rfl | rfl
    · exact .inr (.inr ⟨nofun, nofun, _, rfl⟩)
    · exact .inl ⟨.genmoveExAsk, nofun, _, rfl⟩
    · exact .inr (.inr ⟨nofun, nofun, _, rfl⟩)
  | cons a r =>
    cases hcol : interpretColour a with
    | none =>
      have hno := no_colour hcol
      have h := (C62_genmove_bad (env := env) (s := s) (args := a :: r) hc).2 a r rfl (fun ⟨c, h⟩ => hno c h)
      rw [h]
      rcases hc with rfl | rfl | rfl
      · exact .inr (.inr ⟨fun h => (by cases h with | genmove h => exact hno _ h), fun h => (by cases h with | genmove h => exact hno _ h), _, rfl⟩)
      · exact .inr (.inr ⟨fun h => (by cases h with | genmoveEx h => exact hno _ h), fun h => (by cases h with | genmoveEx h => exact hno _ h), _, rfl⟩)
      · exact .inr (.inr ⟨fun h => (by cases h with | regGenmove h => exact hno _ h), fun h => (by cases h with | regGenmove h => exact hno _ h), _, rfl⟩)
    | some col =>
      have hc' := (C62_colour a col).1 hcol
      have key : ∀ claim fr, genmoveKind c r = some (claim, fr) →
          Verdict (∃ g, env.generate (s.gameState col fr) col = some g ∧ UsableAnswer n s.board.pos claim fr g)
            (Nonsense n claim fr (env.generate (s.gameState col fr) col)) (s.step env c (a :: r)).2 := by
        intro claim fr hk
        rw [step_genmove hk]
        exact answer_verdict (genmove_answer (env := env) (claim := claim) (fr := fr) hi hc')
      rcases hc with rfl | rfl | rfl
      · refine (key _ _ rfl).congr ⟨fun ⟨g, h1, h2⟩ => .genmove hc' h1 h2, fun h => ?_⟩ ⟨fun h => .genmove hc' h, fun h => ?_⟩
        · cases h with | genmove h1 h2 h3 => cases colour_unique hc' h1; exact ⟨_, h2, h3⟩
        · cases h with | genmove h1 h2 => cases colour_unique hc' h1; exact h2
      · refine (key _ _ rfl).congr ⟨fun ⟨g, h1, h2⟩ => .genmoveEx hc' h1 h2, fun h => ?_⟩ ⟨fun h => .genmoveEx hc' h, fun h => ?_⟩
        · cases h with | genmoveEx h1 h2 h3 => cases colour_unique hc' h1; exact ⟨_, h2, h3⟩
        · cases h with | genmoveEx h1 h2 => cases colour_unique hc' h1; exact h2
      · refine (key _ _ rfl).congr ⟨fun ⟨g, h1, h2⟩ => .regGenmove hc' h1 h2, fun h => ?_⟩ ⟨fun h => .regGenmove hc' h, fun h => ?_⟩
        · cases h with | regGenmove h1 h2 h3 => cases colour_unique hc' h1; exact ⟨_, h2, h3⟩
        · cases h with | regGenmove h1 h2 => cases colour_unique hc' h1; exact h2

theorem undo_verdict (hi : Inv n s) (args : List Str) : Verdict (Succeeds env n s .undo args) (Breaks env n s .undo args) (s.undo args).2 := by
  rcases undo_spec (args := args) hi with ⟨h, h'⟩ | ⟨l, m, b, ko, pl, h, _, h', _⟩
  · rw [h']
    exact .inr (.inr ⟨fun hh => (by cases hh with | undo hh => exact hh h), nofun, _, rfl⟩)
  · rw [h']
    exact .inl ⟨.undo (by rw [h]; simp), nofun, _, rfl⟩

theorem timeLeft_verdict (args : List Str) : Verdict (Succeeds env n s .timeLeft args) (Breaks env n s .timeLeft args) (s.timeLeft args).2 := by
  have hb : ¬ Breaks env n s .timeLeft args := nofun
  unfold GS.timeLeft err
  rcases args with _ | ⟨a, _ | ⟨b, _ | ⟨d, r⟩⟩⟩
  · exact .inr (.inr ⟨nofun, hb, _, rfl⟩)
  · exact .inr (.inr ⟨nofun, hb, _, rfl⟩)
  · exact .inr (.inr ⟨nofun, hb, _, rfl⟩)
  · simp only
    cases h1 : interpretColour a with
    | none => exact .inr (.inr ⟨fun h => (by cases h with | timeLeft h => exact no_colour h1 _ h), hb, _, rfl⟩)
    | some c =>
      cases h2 : interpretInt b with
      | none => exact .inr (.inr ⟨fun h => (by cases h with | timeLeft _ h => exact no_int h2 _ h), hb, _, rfl⟩)
      | some t =>
        cases h3 : interpretInt d with
        | none => exact .inr (.inr ⟨fun h => (by cases h with | timeLeft _ _ h => exact no_int h3 _ h), hb, _, rfl⟩)
        | some k => exact .inl ⟨.timeLeft ((C62_colour _ _).1 h1) ((C62_int _ _).1 h2) ((C62_int _ _).1 h3), hb, _, rfl⟩

theorem setTime_verdict (args : List Str) : Verdict (Succeeds env n s .timeSettings args) (Breaks env n s .timeSettings args) (s.setTime args).2 := by
  have hb : ¬ Breaks env n s .timeSettings args := nofun
  unfold GS.setTime err
  rcases args with _ | ⟨a, _ | ⟨b, _ | ⟨d, r⟩⟩⟩
  · exact .inr (.inr ⟨nofun, hb, _, rfl⟩)
  · exact .inr (.inr ⟨nofun, hb, _, rfl⟩)
  · exact .inr (.inr ⟨nofun, hb, _, rfl⟩)
  · simp only
    cases h1 : interpretInt a with
    | none => exact .inr (.inr ⟨fun h => (by cases h with | timeSettings h => exact no_int h1 _ h), hb, _, rfl⟩)
    | some c =>
      cases h2 : interpretInt b with
      | none => exact .inr (.inr ⟨fun h => (by cases h with | timeSettings _ h => exact no_int h2 _ h), hb, _, rfl⟩)
      | some t =>
        cases h3 : interpretInt d with
        | none => exact .inr (.inr ⟨fun h => (by cases h with | timeSettings _ _ h => exact no_int h3 _ h), hb, _, rfl⟩)
        | some k => exact .inl ⟨.timeSettings ((C62_int _ _).1 h1) ((C62_int _ _).1 h2) ((C62_int _ _).1 h3), hb, _, rfl⟩

end

/-! ### loadsgf -/

theorem find_mem {m : Sgf.PropMap} {i : Str} {vs : List Sgf.Raw} (h : m.find i = some vs) : ∃ j, (j, vs) ∈ m := by
  unfold Sgf.PropMap.find at h
  rw [Option.map_eq_some_iff] at h
  obtain ⟨p, hp, rfl⟩ := h
  exact ⟨p.1, List.mem_of_find?_eq_some hp⟩

theorem parsed_first {m : Sgf.PropMap} (hm : Sgf.ParsedMap m) {i : Str} {vs : List Sgf.Raw} (h : m.find i = some vs) : ∃ v, Sgf.firstValue vs = .ok v := by
  obtain ⟨j, hj⟩ := find_mem h
  have := hm.nonempty _ hj
  cases vs with
  | nil => exact absurd rfl this
  | cons v vs => exact ⟨v, rfl⟩

theorem parsed_main (t : Sgf.CTree) (h : Sgf.ParsedTree t) : t.mainSequence ≠ [] ∧ ∀ m ∈ t.mainSequence, Sgf.ParsedMap m := by
  induction h with
  | @mk sq ch hne hm hc ih =>
    cases ch with
    | nil => exact ⟨by simpa [Sgf.CTree.mainSequence] using hne, by simpa [Sgf.CTree.mainSequence] using hm⟩
    | cons c r =>
      unfold Sgf.CTree.mainSequence
      refine ⟨by simp [hne], fun m hmem => ?_⟩
      rcases List.mem_append.1 hmem with h | h
      · exact hm m h
      · exact (ih c (by simp)).2 m h

theorem single_error {raw : List Sgf.Raw} {e : Exc} (h : Sgf.singleValue raw = .error e) : e = .valueError := by
  unfold Sgf.singleValue at h
  split at h
  · cases h; rfl
  · exact nomatch h
  · cases h; rfl

theorem list_error {raw : List Sgf.Raw} {e : Exc} (h : Sgf.listValues raw = .error e) : e = .valueError := by
  unfold Sgf.listValues at h
  split at h
  · cases h; rfl
  · split at h <;> exact nomatch h

theorem fromCoarse_parsed {codec : Str → Bool} {t : Sgf.CTree} (hp : Sgf.ParsedTree t) (r : Except Exc Sgf.SgfGame) (h : Sgf.SgfGame.fromCoarse codec t = r) :
    (∃ g, r = .ok g ∧ g.tree = t) ∨ r = .error .valueError := by
  obtain ⟨sq, ch⟩ := t
  cases hp with
  | mk hne hm hc =>
    cases sq with
    | nil => exact absurd rfl hne
    | cons root sq =>
      have hr := hm root (by simp)
      unfold Sgf.SgfGame.fromCoarse at h
      simp only [Sgf.CTree.sequence, bind, Except.bind, pure, Except.pure, throw, throwThe, MonadExceptOf.throw] at h
      have fin : ∀ {k : Int} {enc : Str}, (if ¬ (1 ≤ k ∧ k ≤ 26) then (Except.error Exc.valueError : Except Exc Sgf.SgfGame) else
          if (!codec enc) = true then Except.error Exc.valueError else Except.ok { size := k, tree := Sgf.CTree.mk (root :: sq) ch }) = r →
          (∃ g, r = .ok g ∧ g.tree = Sgf.CTree.mk (root :: sq) ch) ∨ r = .error .valueError := by
        intro k enc h
        split at h
        · exact .inr h.symm
        · split at h
          · exact .inr h.symm
          · exact .inl ⟨_, h.symm, rfl⟩
      cases hs : root.find ['S', 'Z'] with
      | none =>
        cases hc : root.find ['C', 'A'] with
        | none =>
          simp only [hs, hc] at h
          exact fin h
        | some vs =>
          obtain ⟨v, hv⟩ := parsed_first hr hc
          simp only [hs, hc, hv] at h
          exact fin h
      | some vs =>
        obtain ⟨v, hv⟩ := parsed_first hr hs
        cases hk : parseInt v with
        | error e =>
          simp only [hs, hv, hk] at h
          rw [parseInt_error hk] at h
          exact .inr h.symm
        | ok k =>
          cases hc : root.find ['C', 'A'] with
          | none =>
            simp only [hs, hv, hk, hc] at h
            exact fin h
          | some vs =>
            obtain ⟨v, hv'⟩ := parsed_first hr hc
            simp only [hs, hv, hk, hc, hv'] at h
            exact fin h

/-- A game which has been loaded. -/
theorem fromString_parsed {codec : Str → Bool} {t : Str} : (∃ g, Sgf.SgfGame.fromString codec t = .ok g ∧ Sgf.ParsedTree g.tree) ∨
    Sgf.SgfGame.fromString codec t = .error .valueError := by
  unfold Sgf.SgfGame.fromString
  rcases Sgf.C17_total t with ⟨tree, h, hp⟩ | h
  · rw [h]
    rcases fromCoarse_parsed (codec := codec) hp _ rfl with ⟨g, h1, h2⟩ | h1
    · exact .inl ⟨g, h1, by rw [h2]; exact hp⟩
    · exact .inr h1
  · rw [h]
    exact .inr rfl

theorem komi_error {readFloat : Str → Option Rat} {g : Sgf.SgfGame} {e : Exc} (h : g.getKomi readFloat = .error e) : e = .valueError := by
  unfold Sgf.SgfGame.getKomi at h
  cases hf : g.root.find ['K', 'M'] with
  | none => rw [hf] at h; exact nomatch h
  | some raw =>
    rw [hf] at h
    simp only [bind, Except.bind, pure, Except.pure, throw, throwThe, MonadExceptOf.throw] at h
    cases hs : Sgf.singleValue raw with
    | error e' => rw [hs] at h; simp only at h; cases h; exact single_error hs
    | ok v =>
      rw [hs] at h
      simp only at h
      cases hr : readFloat v with
      | none => rw [hr] at h; cases h; rfl
      | some f => rw [hr] at h; exact nomatch h

theorem handicap_error {g : Sgf.SgfGame} {e : Exc} (h : g.getHandicap = .error e) : e = .valueError := by
  unfold Sgf.SgfGame.getHandicap at h
  cases hf : g.root.find ['H', 'A'] with
  | none => rw [hf] at h; exact nomatch h
  | some raw =>
    rw [hf] at h
    simp only [bind, Except.bind, pure, Except.pure, throw, throwThe, MonadExceptOf.throw] at h
    cases hs : Sgf.singleValue raw with
    | error e' => rw [hs] at h; simp only at h; cases h; exact single_error hs
    | ok v =>
      rw [hs] at h
      simp only at h
      cases hr : Sgf.interpretNumber v with
      | error e' => rw [hr] at h; cases h; exact parseInt_error hr
      | ok k =>
        rw [hr] at h
        simp only at h
        split at h
        · exact nomatch h
        · split at h
          · cases h; rfl
          · exact nomatch h

theorem ignoreBad_ok (g : Sgf.SgfGame) : ∃ h, ignoreBadHandicap g.getHandicap = .ok h := by
  cases hg : g.getHandicap with
  | error e => rw [handicap_error hg]; exact ⟨_, rfl⟩
  | ok k => exact ⟨k, rfl⟩

theorem goPoint_on {v : Str} {size : Int} {p : Pt} (h : Sgf.interpretGoPoint v size = .ok (some p)) : 0 ≤ p.1 ∧ p.1 < size ∧ 0 ≤ p.2 ∧ p.2 < size := by
  rcases Sgf.C22_interpret_total v size with ⟨h', _⟩ | ⟨p', h', hb, _⟩ | h'
  · rw [h'] at h; exact nomatch h
  · rw [h'] at h
    injection h with h
    injection h with h
    rw [← h]; exact hb
  · rw [h'] at h; exact nomatch h

theorem cov_on {size : Int} {v : Str} {q : Pt} (h : Sgf.Covers size v q) : OnBoard size.toNat q := by
  unfold OnBoard
  rcases h with h | ⟨a, b, _, p1, p2, h1, h2, h3⟩
  · have := goPoint_on h; omega
  · have := goPoint_on h1
    have := goPoint_on h2
    omega

theorem pointList_total (m : Sgf.PropMap) (i : Str) (size : Int) :
    (∃ l, Sgf.getPointList m i size = .ok l ∧ ∀ p ∈ l, OnBoard size.toNat p) ∨ Sgf.getPointList m i size = .error .valueError := by
  unfold Sgf.getPointList
  cases hf : m.find i with
  | none => exact .inl ⟨[], rfl, by simp⟩
  | some raw =>
    simp only [bind, Except.bind]
    cases hl : Sgf.listValues raw with
    | error e => rw [list_error hl]; exact .inr rfl
    | ok vs =>
      simp only
      by_cases hg : ∀ s ∈ vs, Sgf.GoodElement size s
      · obtain ⟨res, h1, _, h3⟩ := (Sgf.C22_point_list size vs).1 hg
        refine .inl ⟨res, h1, fun p hp => ?_⟩
        obtain ⟨s, _, hc⟩ := (h3 p).1 hp
        exact cov_on hc
      · exact .inr ((Sgf.C22_point_list size vs).2 hg)

theorem rawMove_ok {m : Sgf.PropMap} (hm : Sgf.ParsedMap m) : ∃ r, Sgf.getRawMove m = .ok r := by
  unfold Sgf.getRawMove
  cases hb : m.find ['B'] with
  | some vs =>
    obtain ⟨v, hv⟩ := parsed_first hm hb
    simp only [hv, bind, Except.bind, pure, Except.pure]
    exact ⟨_, rfl⟩
  | none =>
    simp only
    cases hw : m.find ['W'] with
    | some vs =>
      obtain ⟨v, hv⟩ := parsed_first hm hw
      simp only [hv, bind, Except.bind, pure, Except.pure]
      exact ⟨_, rfl⟩
    | none => exact ⟨_, rfl⟩

theorem collect_error {size : Int} (seq : List Sgf.PropMap) (hp : ∀ m ∈ seq, Sgf.ParsedMap m) {e : Exc} (h : Sgf.collectMoves size seq = .error e) :
    e = .valueError := by
  induction seq with
  | nil => exact nomatch h
  | cons m rest ih =>
    unfold Sgf.collectMoves at h
    simp only [bind, Except.bind, pure, Except.pure, throw, throwThe, MonadExceptOf.throw] at h
    split at h
    · cases h; rfl
    · obtain ⟨r, hr⟩ := rawMove_ok (hp m (by simp))
      rw [hr] at h
      have ih' := ih (fun x hx => hp x (by simp [hx]))
      cases r with
      | none => exact ih' h
      | some x =>
        simp only at h
        rcases Sgf.C22_interpret_total x.2 size with ⟨h', _⟩ | ⟨p, h', _⟩ | h'
        · rw [h'] at h
          simp only at h
          cases hc : Sgf.collectMoves size rest with
          | ok _ => rw [hc] at h; exact nomatch h
          | error e' => rw [hc] at h; cases h; exact ih' hc
        · rw [h'] at h
          simp only at h
          cases hc : Sgf.collectMoves size rest with
          | ok _ => rw [hc] at h; exact nomatch h
          | error e' => rw [hc] at h; cases h; exact ih' hc
        · rw [h'] at h; cases h; rfl

theorem setup_error {size : Int} (h2 : 2 ≤ size) (t : Sgf.CTree) (ht : Sgf.ParsedTree t) {e : Exc}
    (h : Sgf.getSetupAndMoves size t.mainSequence = .error e) : e = .valueError := by
  obtain ⟨hne, hp⟩ := parsed_main t ht
  generalize t.mainSequence = seq at *
  obtain ⟨b, hb, _⟩ := init_ok (n := size.toNat) (by omega)
  cases seq with
  | nil => exact absurd rfl hne
  | cons root below =>
    unfold Sgf.getSetupAndMoves Sgf.getSetupStones at h
    simp only [hb, bind, Except.bind, pure, Except.pure, throw, throwThe, MonadExceptOf.throw] at h
    rcases pointList_total root ['A', 'B'] size with ⟨ab, h1, o1⟩ | h1
    · rcases pointList_total root ['A', 'W'] size with ⟨aw, h2', o2⟩ | h2'
      · rcases pointList_total root ['A', 'E'] size with ⟨ae, h3, o3⟩ | h3
        · simp only [h1, h2', h3] at h
          by_cases hs : ab ≠ [] ∨ aw ≠ []
          · rw [if_pos hs] at h
            obtain ⟨lg, b', ha, _⟩ := C09_apply_setup (init_reachable hb) defaultPops ab aw ae (by
              intro p hp
              simp only [List.mem_append] at hp
              rcases hp with (hp | hp) | hp
              · exact o1 p hp
              · exact o2 p hp
              · exact o3 p hp)
            have ha' : b.applySetup ab aw ae = .ok (lg, b') := ha
            obtain ⟨r, hr⟩ := rawMove_ok (hp root (by simp))
            rw [ha'] at h
            simp only [hr] at h
            cases lg with
            | false => simp at h; exact h.symm
            | true =>
              simp only [Bool.not_true, Bool.false_eq_true, if_false] at h
              split at h
              · cases h; rfl
              · cases hc : Sgf.collectMoves size below with
                | ok _ => rw [hc] at h; exact nomatch h
                | error e' => rw [hc] at h; cases h; exact collect_error below (fun m hm => hp m (by simp [hm])) hc
          · rw [if_neg hs] at h
            cases hc : Sgf.collectMoves size (root :: below) with
            | ok _ => rw [hc] at h; exact nomatch h
            | error e' => rw [hc] at h; cases h; exact collect_error _ hp hc
        · simp only [h1, h2', h3] at h; cases h; rfl
      · simp only [h1, h2'] at h; cases h; rfl
    · simp only [h1] at h; cases h; rfl

section
variable {env : Env} {n : Nat} {s : GS}

theorem loadGame_verdict (hi : Inv n s) (mn : Option Int) (g : Sgf.SgfGame) (hg : Sgf.ParsedTree g.tree) :
    Verdict (g.size ∈ s.acceptable ∧ (∃ komi, g.getKomi env.readFloat = .ok komi) ∧ ∃ b plays, Sgf.getSetupAndMoves g.size g.tree.mainSequence = .ok (b, plays) ∧
      AllLegal g.size.toNat b.pos (movesBefore mn plays)) False (s.loadGame env mn g).2 := by
  unfold GS.loadGame err
  by_cases hacc : g.size ∈ s.acceptable
  · have h2 := hi.acc g.size hacc
    rw [if_neg (by simpa using hacc)]
    simp only
    cases hk : g.getKomi env.readFloat with
    | error e =>
      rw [komi_error hk]
      exact .inr (.inr ⟨fun ⟨_, ⟨_, h⟩, _⟩ => (nomatch h), id, _, rfl⟩)
    | ok komi =>
      obtain ⟨h, hh⟩ := ignoreBad_ok g
      simp only [hh]
      cases hsm : Sgf.getSetupAndMoves g.size g.tree.mainSequence with
      | error e =>
        rw [setup_error h2 g.tree hg hsm]
        exact .inr (.inr ⟨fun ⟨_, _, _, _, h, _⟩ => (nomatch h), id, _, rfl⟩)
      | ok x =>
        obtain ⟨board, plays⟩ := x
        obtain ⟨hb, hpl⟩ := setupAndMoves_spec hsm
        simp only
        have hmv := mvs_beforeMove mn plays
        generalize hnh : beforeMove mn (List.map (fun p : Colour × Option Pt => ({ colour := p.1, move := p.2 } : HistMove)) plays) = newh at hmv ⊢
        have hmv' : mvs newh = movesBefore mn plays := hmv
        have hnew : ∀ m ∈ newh, ∀ p, m.move = some p → OnBoard g.size.toNat p := by
          have hsub : ∀ m ∈ newh, m ∈ List.map (fun p : Colour × Option Pt => ({ colour := p.1, move := p.2 } : HistMove)) plays := by
            subst hnh
            unfold beforeMove
            split
            · exact fun m hm => hm
            · exact fun m hm => List.mem_of_mem_take hm
          intro m hm p hp
          obtain ⟨x, hx, rfl⟩ := List.mem_map.1 (hsub m hm)
          exact hpl x hx p hp
        rcases hr : replayK board none none newh with e | ⟨b, ko, pl⟩
        · have he := replayK_error hb newh none none hnew hr
          subst he
          obtain ⟨b1, k1, hreset⟩ := resetToMoves_error
            (s := GS.setHistoryBase { s with boardSize := g.size } board) (l := newh) hr
          obtain ⟨ko, pl, hrep, hk1, hk2⟩ := hi.rep
          rw [hreset]
          simp only
          rw [resetToMoves_ok (s := GS.setHistoryBase _ s.base) (l := s.history) hrep]
          refine .inr (.inr ⟨?_, id, _, rfl⟩)
          rintro ⟨_, _, b', plays', hsm', hl⟩
          cases hsm'
          rw [← hmv'] at hl
          obtain ⟨x, hx⟩ := replayK_ok hb newh hl
          rw [hx] at hr
          exact nomatch hr
        · rw [resetToMoves_ok (s := GS.setHistoryBase { s with boardSize := g.size } board) (l := newh) hr]
          refine .inl ⟨⟨hacc, ⟨komi, rfl⟩, board, plays, rfl, ?_⟩, id, _, rfl⟩
          rw [← hmv']
          exact (replayK_rules hb newh _ _ _ hr).2.2.1
  · rw [if_pos hacc]
    exact .inr (.inr ⟨fun h => hacc h.1, id, _, rfl⟩)

theorem loadsgf_verdict (hi : Inv n s) (args : List Str) :
    Verdict (Succeeds env n s .loadsgf args) (Breaks env n s .loadsgf args) (s.loadsgf env args).2 := by
  cases args with
  | nil => exact .inr (.inr ⟨nofun, nofun, _, rfl⟩)
  | cons path rest =>
    have hb : ¬ Breaks env n s .loadsgf (path :: rest) := nofun
    have key : ∀ mn, IsMoveNumber rest mn → (∀ mn', IsMoveNumber rest mn' → mn' = mn) →
        Verdict (Succeeds env n s .loadsgf (path :: rest)) (Breaks env n s .loadsgf (path :: rest)) (match env.file path with
          | none => (s, Outcome.gtpError "cannot load file".toList)
          | some text => match Sgf.SgfGame.fromString env.codec text with
            | .error .valueError => (s, Outcome.gtpError "cannot load file".toList)
            | .error e => exc s e
            | .ok game => s.loadGame env mn game).2 := by
      intro mn h1 h3
      cases hf : env.file path with
      | none => exact .inr (.inr ⟨fun h => (by cases h with | loadsgf _ h => rw [hf] at h; exact nomatch h), hb, _, rfl⟩)
      | some text =>
        simp only
        rcases fromString_parsed (codec := env.codec) (t := text) with ⟨g, hg, hp⟩ | hg
        · rw [hg]
          refine (loadGame_verdict (env := env) hi mn g hp).congr ⟨?_, ?_⟩ ⟨False.elim, hb⟩
          · rintro ⟨ha, ⟨komi, hk⟩, b, plays, hsm, hl⟩
            exact .loadsgf h1 hf hg ha hk hsm hl
          · intro h
            cases h with
            | loadsgf hmn hf' hg' ha hk hsm hl =>
              rw [hf] at hf'
              injection hf' with hf'
              rw [← hf', hg] at hg'
              injection hg' with hg'
              rw [h3 _ hmn] at hl
              rw [← hg'] at ha hk hsm hl
              exact ⟨ha, ⟨_, hk⟩, _, _, hsm, hl⟩
        · rw [hg]
          refine .inr (.inr ⟨fun h => ?_, hb, _, rfl⟩)
          cases h with
          | loadsgf hmn hf' hg' ha hk hsm hl =>
            rw [hf] at hf'
            injection hf' with hf'
            rw [← hf', hg] at hg'
            exact nomatch hg'
    unfold GS.loadsgf err
    cases rest with
    | nil =>
      refine key none (.inl ⟨rfl, rfl⟩) ?_
      rintro mn' (⟨_, h⟩ | ⟨_, _, _, h, _⟩)
      · exact h
      · exact nomatch h
    | cons a r =>
      cases hk : interpretInt a with
      | none =>
        simp only [hk, Option.map_none]
        refine .inr (.inr ⟨fun h => ?_, hb, _, rfl⟩)
        cases h with
        | loadsgf h =>
          rcases h with ⟨h, _⟩ | ⟨_, _, _, h, h', _⟩
          · exact nomatch h
          · cases h; exact no_int hk _ h'
      | some k =>
        have hk' := (C62_int a k).1 hk
        simp only [hk, Option.map_some]
        refine key (some k) (.inr ⟨a, r, k, rfl, hk', rfl⟩) ?_
        rintro mn (⟨h, _⟩ | ⟨_, _, _, h, h', h''⟩)
        · exact nomatch h
        · cases h; rw [h'', int_unique h' hk']

theorem verdict (hi : Inv n s) (c : Cmd) (args : List Str) : Verdict (Succeeds env n s c args) (Breaks env n s c args) (s.step env c args).2 := by
  cases c with
  | boardsize => exact boardsize_verdict hi args
  | clearBoard => exact clearBoard_verdict hi args
  | komi => exact komi_verdict args
  | fixedHandicap => exact fixed_verdict hi args
  | setFreeHandicap => exact setFree_verdict hi args
  | placeFreeHandicap => exact place_verdict hi args
  | play => exact play_verdict hi args
  | genmove => exact genmove_verdict hi _ (.inl rfl) args
  | genmoveEx => exact genmove_verdict hi _ (.inr (.inl rfl)) args
  | regGenmove => exact genmove_verdict hi _ (.inr (.inr rfl)) args
  | undo => exact undo_verdict hi args
  | loadsgf => exact loadsgf_verdict hi args
  | timeLeft => exact timeLeft_verdict args
  | timeSettings => exact setTime_verdict args
  | explainLastMove =>
    refine .inl ⟨.explainLastMove, nofun, ?_⟩
    show ∃ r, (s.explainLastMove args).2 = _
    unfold GS.explainLastMove
    split <;> exact ⟨_, rfl⟩

end

/-! ## C94 -/

/-- States of a Gtp_state with these acceptable sizes which has handled any commands, in circumstances (move generator, files) which may have been different
each time; no failing command changed the board size. -/
inductive Lived (acceptable : List Int) : GS → Prop
  | start {s : GS} : GS.init acceptable = .ok s → Lived acceptable s
  | step {s s' : GS} {env : Env} {c : Cmd} {args : List Str} {o : Outcome} : Lived acceptable s → s.step env c args = (s', o) →
      (Failed o → s'.boardSize = s.boardSize) → Lived acceptable s'

theorem Lived.inv {acceptable : List Int} {s : GS} (h : Lived acceptable s) : ∃ n, Inv n s := by
  induction h with
  | start h => exact init_inv h
  | step _ hstep hsize ih =>
    obtain ⟨n, hi⟩ := ih
    rcases step_spec hi hstep with ⟨_, h⟩ | ⟨hf, h | ⟨_, _, h⟩ | ⟨_, h⟩⟩
    · exact h
    · rw [h]; exact ⟨n, hi⟩
    · exact ⟨n, h.inv hi.size hi.two hi.acc⟩
    · exact ⟨n, h.inv hi (hsize hf)⟩

theorem Reached.lived {env : Env} {acceptable : List Int} {s : GS} (h : Reached env acceptable s) : Lived acceptable s := by
  induction h with
  | start h => exact .start h
  | step _ hs hz ih => exact .step ih hs hz

theorem Lived.inv_of {acceptable : List Int} {s : GS} (h : Lived acceptable s) {n : Nat} (hn : s.boardSize = n) : Inv n s := by
  obtain ⟨m, hi⟩ := h.inv
  have : m = n := by have := hi.size; omega
  exact this ▸ hi

/-- C94: whatever has happened before, a command returns normally just when it should, breaks just when it should, and is refused with a GTP error otherwise. -/
theorem C94_outcome {acceptable : List Int} {s : GS} (h : Lived acceptable s) {n : Nat} (hn : s.boardSize = n) (env : Env) (c : Cmd) (args : List Str) :
    (Succeeds env n s c args ↔ ∃ r, (s.step env c args).2 = .value r) ∧
    (Breaks env n s c args ↔ ∃ tb, (s.step env c args).2 = .exception tb) ∧
    ((¬ Succeeds env n s c args ∧ ¬ Breaks env n s c args) ↔ ∃ m, (s.step env c args).2 = .gtpError m) := by
  rcases verdict (h.inv_of hn) c args with ⟨h1, h2, r, h3⟩ | ⟨h1, h2, r, h3⟩ | ⟨h1, h2, r, h3⟩
  · exact ⟨⟨fun _ => ⟨r, h3⟩, fun _ => h1⟩, ⟨fun x => absurd x h2, fun ⟨_, x⟩ => by rw [h3] at x; exact nomatch x⟩,
      ⟨fun x => absurd h1 x.1, fun ⟨_, x⟩ => by rw [h3] at x; exact nomatch x⟩⟩
  · exact ⟨⟨fun x => absurd x h2, fun ⟨_, x⟩ => by rw [h3] at x; exact nomatch x⟩, ⟨fun _ => ⟨r, h3⟩, fun _ => h1⟩,
      ⟨fun x => absurd h1 x.2, fun ⟨_, x⟩ => by rw [h3] at x; exact nomatch x⟩⟩
  · exact ⟨⟨fun x => absurd x h1, fun ⟨_, x⟩ => by rw [h3] at x; exact nomatch x⟩, ⟨fun x => absurd x h2, fun ⟨_, x⟩ => by rw [h3] at x; exact nomatch x⟩,
      ⟨fun _ => ⟨r, h3⟩, fun _ => ⟨h1, h2⟩⟩⟩

/-- C94: the state always makes sense: the board has the state's size and is the result of playing the recorded moves from the base position, which is legal. -/
theorem C94_board {acceptable : List Int} {s : GS} (h : Lived acceptable s) :
    ∃ n : Nat, s.boardSize = n ∧ 2 ≤ n ∧ ReachableBoard n s.base ∧ ReachableBoard n s.board ∧
      ∃ ko pl, replayK s.base none none s.history = .ok (s.board, ko, pl) := by
  obtain ⟨n, hi⟩ := h.inv
  obtain ⟨ko, pl, h1, _⟩ := hi.rep
  exact ⟨n, hi.size, hi.two, hi.base, hi.board, ko, pl, h1⟩

/-- C94: boardsize, when it succeeds, leaves an empty board of the size asked for, with no history, handicap or ko; nothing else changes. -/
theorem C94_boardsize {acceptable : List Int} {s : GS} (h : Lived acceptable s) (env : Env) {a : Str} {r : List Str} {k : Int} (hk : IsGtpInt a k)
    (hm : k ∈ s.acceptable) :
    ∃ b, s.step env .boardsize (a :: r) =
        ({ s with boardSize := k, board := b, base := b, history := [], handicap := none, koPoint := none, koPlayer := none }, .value none) ∧
      ReachableBoard k.toNat b ∧ Empty b.pos := by
  obtain ⟨n, hi⟩ := h.inv
  have h2 := hi.acc k hm
  obtain ⟨s1, h3, b, hb, h4⟩ := reset_spec (n := k.toNat) (s := { s with boardSize := k }) (by simp; omega) (by omega)
  refine ⟨b, ?_, init_reachable hb, fun q => congrFun (init_spec hb).2.2.2.2 q⟩
  show s.boardsize (a :: r) = _
  unfold GS.boardsize
  simp only [(C62_int a k).2 hk]
  rw [if_neg (by simpa using hm), h3, h4]

/-- C94: clear_board always succeeds, and leaves an empty board of the same size, with no history, handicap or ko; nothing else changes. -/
theorem C94_clear_board {acceptable : List Int} {s : GS} (h : Lived acceptable s) (env : Env) (args : List Str) {n : Nat} (hn : s.boardSize = n) :
    ∃ b, s.step env .clearBoard args =
        ({ s with board := b, base := b, history := [], handicap := none, koPoint := none, koPlayer := none }, .value none) ∧
      ReachableBoard n b ∧ Empty b.pos := by
  have hi := h.inv_of hn
  obtain ⟨s1, h3, b, hb, h4⟩ := reset_spec hi.size hi.two
  refine ⟨b, ?_, init_reachable hb, fun q => congrFun (init_spec hb).2.2.2.2 q⟩
  show s.clearBoard args = _
  unfold GS.clearBoard
  rw [h3, h4]

/-- C94: place_free_handicap, when it succeeds, places the stones of the fixed handicap layout, at most four or nine of them, and reports them. But the handicap
which is recorded is (a bug) the number asked for, even when that's more than were placed. -/
theorem C94_place_free_handicap {acceptable : List Int} {s : GS} (h : Lived acceptable s) {n : Nat} (hn : s.boardSize = n) (env : Env) {a : Str} {r : List Str}
    {k : Int} (hk : IsGtpInt a k) (h2 : 2 ≤ k) (hm : k < n * n) (he : Empty s.board.pos) (h8 : 8 ≤ n) (h25 : n ≤ 25) :
    ∃ s' l t, s.step env .placeFreeHandicap (a :: r) = (s', .value (some t)) ∧ Handicap.points (min k (layoutMax n)) n = .ok l ∧ vertexText l = .ok t ∧
      (l.length : Int) = min k (layoutMax n) ∧ l.Nodup ∧ (∀ q, s'.board.pos q = if q ∈ l then some .b else none) ∧
      s' = { s with board := s'.board, base := s'.board, history := [], koPoint := none, handicap := some (if k = n * n - 1 then k - 1 else k) } := by
  have hi := h.inv_of hn
  have hmf : Handicap.maxFree n = (n : Int) * n - 1 := rfl
  have hnn : (64 : Int) ≤ (n : Int) * n := by
    have := Nat.mul_le_mul h8 h8
    have hc : ((n * n : Nat) : Int) = (n : Int) * n := by push_cast; rfl
    omega
  have hmax : layoutMax n ≤ 9 := by unfold layoutMax; split <;> [omega; (split <;> omega)]
  have he' : s.board.isEmpty = true := (empty_iff hi.board).2 he
  generalize hk2 : (if k = Handicap.maxFree n then Handicap.maxFree n - 1 else k) = k2
  have h22 : 2 ≤ k2 := by rw [← hk2]; split <;> omega
  have hmin : min k2 (layoutMax n) = min k (layoutMax n) := by rw [← hk2]; split <;> omega
  have hk3 : k2 = if k = (n : Int) * n - 1 then k - 1 else k := by rw [← hk2, hmf]; split <;> omega
  rcases chooseFree_total n k2 h22 with ⟨_, _, l, k', hl, hkk, hp⟩ | ⟨h8', _⟩
  · obtain ⟨b, t, h5, h6, h7⟩ := place_points (k' := k2) hi he' hp
    have hfix := fixed_points hp
    rcases C15_handicap_points k' n with ⟨_, _, _, _, l', hl', h9, h10, _⟩ | ⟨h9, _⟩
    · rw [hp] at hl'
      injection hl' with hl'
      subst hl'
      have hlen : (l.length : Int) ≤ k2 := by omega
      refine ⟨_, l, t, ?_, hmin ▸ hkk ▸ hp, h6, by omega, h10, h7.pos, ?_⟩
      · show s.placeFreeHandicap (a :: r) = _
        unfold GS.placeFreeHandicap
        simp only [(C62_int a k).2 hk]
        rw [hi.size, if_neg (by simp only [not_not]; omega), he']
        simp only [Bool.not_true, Bool.false_eq_true, if_false, hk2, hl]
        rw [if_neg (by omega), h5]
        simp only [h6]
      · obtain ⟨b', hb'⟩ := h7.eq
        rw [← hk3, hb']
    · rw [hp] at h9; exact nomatch h9
  · omega

/-! ### showboard -/

theorem blank_join (l : List Str) (hl : ∀ x ∈ l, x ≠ [] ∧ '\n' ∉ x) : ¬ "\n\n".toList <:+: '\n' :: join ['\n'] l := by
  induction l with
  | nil => decide +kernel
  | cons x l ih =>
    obtain ⟨h1, h2⟩ := hl x (by simp)
    have hlast : ∀ c, x.getLast? = some c → c ≠ '\n' := fun c hc e => h2 (e ▸ List.mem_of_getLast? hc)
    have hx : ¬ "\n\n".toList <:+: '\n' :: x := by
      cases x with
      | nil => exact absurd rfl h1
      | cons a x =>
        intro h
        rcases List.infix_cons_iff.1 h with h | h
        · exact h2 (by rw [(nn_prefix.1 h).2]; simp)
        · exact h2 (h.subset (by simp))
    cases l with
    | nil => exact hx
    | cons y l =>
      have e : '\n' :: join ['\n'] (x :: y :: l) = ('\n' :: x) ++ '\n' :: join ['\n'] (y :: l) := by simp [join]
      rw [e, nn_append]
      rintro (h | h | ⟨h, _⟩)
      · exact hx h
      · exact ih (fun z hz => hl z (by simp [hz])) h
      · cases x with
        | nil => exact h1 rfl
        | cons a x =>
          rw [List.getLast?_cons_cons] at h
          exact hlast _ h rfl

theorem rendered_line {n : Nat} (hn : n ≤ 25) (pos : Position) : ∀ x ∈ Ascii.renderedLines n pos, x ≠ [] ∧ '\n' ∉ x := by
  intro x hx
  unfold Ascii.renderedLines at hx
  rw [List.mem_append, List.mem_map, List.mem_singleton] at hx
  rcases hx with ⟨row, _, rfl⟩ | rfl
  · exact ⟨by unfold Ascii.rowLine; simp, Ascii.newline_not_mem_row⟩
  · exact ⟨by unfold Ascii.headerLine; simp, Ascii.newline_not_mem_header hn⟩

theorem rendered_char {n : Nat} (hn : n ≤ 25) (pos : Position) : ∀ x ∈ Ascii.renderedLines n pos, ∀ c ∈ x, 32 ≤ c.toNat ∧ c.toNat < 127 := by
  intro x hx c hc
  unfold Ascii.renderedLines at hx
  rw [List.mem_append, List.mem_map, List.mem_singleton] at hx
  have hdig : ∀ k : Int, 0 ≤ k → c ∈ strInt k → 32 ≤ c.toNat ∧ c.toNat < 127 := by
    intro k hk h
    have := Ascii.mem_strInt_nat hk h
    unfold Char.isDigit at this
    simp only [Bool.and_eq_true, decide_eq_true_eq, ge_iff_le] at this
    have h1 : (48 : Nat) ≤ c.toNat := this.1
    have h2 : c.toNat ≤ 57 := this.2
    omega
  rcases hx with ⟨row, _, rfl⟩ | rfl
  · unfold Ascii.rowLine at hc
    rw [List.mem_append, List.mem_append] at hc
    rcases hc with (h | h) | h
    · split at h
      · unfold strInt2 at h
        rw [List.mem_append] at h
        rcases h with h | h
        · have := List.eq_of_mem_replicate h; subst this; decide
        · exact hdig _ (by omega) h
      · exact hdig _ (by omega) h
    · rw [List.mem_singleton] at h; subst h; decide
    · rcases mem_join h with h | ⟨x, hx, h⟩
      · rw [List.mem_singleton] at h; subst h; decide
      · obtain ⟨col, _, rfl⟩ := List.mem_map.1 hx
        have := Ascii.mem_pointString h
        have key : ∀ d ∈ " .#o".toList, 32 ≤ d.toNat ∧ d.toNat < 127 := by decide +kernel
        exact key c this
  · rcases Ascii.header_chars hn hc with rfl | h
    · decide
    · have key : ∀ d ∈ columnLetters, 32 ≤ d.toNat ∧ d.toNat < 127 := by decide +kernel
      exact key c h

theorem rendered_ok {n : Nat} {b : Board} (h : ReachableBoard n b) (hn : n ≤ 25) :
    Ascii.renderBoard b = .ok (join ['\n'] (Ascii.renderedLines n b.pos)) := by
  have hi := h.inv
  unfold Ascii.renderBoard
  rw [hi.side, Ascii.renderGrid_eq hn (pos := b.pos)]
  · rfl
  · intro row col hrow hcol
    have := get_ok hi.wf (p := ((row : Int), (col : Int))) (by rw [hi.side]; unfold OnBoard; simp; omega)
    simp only at this
    rw [this]; rfl

theorem interpret_newline (d : Str) (n : Nat) (b : Option Board) : Ascii.interpretDiagram ('\n' :: d) n b = Ascii.interpretDiagram d n b := by
  have h : strip ('\n' :: d) = strip d := rfl
  unfold Ascii.interpretDiagram Ascii.interpretOn
  rw [h]

theorem rendered_last {n : Nat} (h0 : 0 < n) (hn : n ≤ 25) (pos : Position) (c : Char)
    (hc : ('\n' :: join ['\n'] (Ascii.renderedLines n pos)).getLast? = some c) : isSpace c = false := by
  have hne : Ascii.headerLine n ≠ [] := by unfold Ascii.headerLine; simp
  have hj : (join ['\n'] (Ascii.renderedLines n pos)).getLast? = (Ascii.headerLine n).getLast? := by
    unfold Ascii.renderedLines; rw [Ascii.join_getLast hne]
  generalize join ['\n'] (Ascii.renderedLines n pos) = d at *
  cases d with
  | nil => rw [List.getLast?_nil] at hj; exact absurd (List.getLast?_eq_none_iff.1 hj.symm) hne
  | cons a d =>
    rw [List.getLast?_cons_cons, hj] at hc
    exact Ascii.header_last h0 hn hc

/-- C94: showboard: for a board which has a diagram, the text sent (a newline and the diagram) can be read back as the position; for a larger one it breaks. -/
theorem C94_showboard {acceptable : List Int} {s : GS} (h : Lived acceptable s) {n : Nat} (hn : s.boardSize = n) (args : List Str) :
    (n ≤ 25 → ∃ t d, s.showboard args = .value (some t) ∧ Ascii.renderBoard s.board = .ok d ∧ cleanResponse (some t) = '\n' :: d ∧
      Ascii.interpretDiagram (cleanResponse (some t)) n none = .ok s.board) ∧
    (25 < n → ∃ tb, s.showboard args = .exception tb) := by
  have hi := h.inv_of hn
  have hb := hi.board
  have h2 := hi.two
  constructor
  · intro h25
    have hr := rendered_ok hb h25
    have hlast := rendered_last (by omega : 0 < n) h25 s.board.pos
    have hclean : cleanResponse (some ("\n".toList ++ join ['\n'] (Ascii.renderedLines n s.board.pos) ++ "\n".toList)) =
        '\n' :: join ['\n'] (Ascii.renderedLines n s.board.pos) := by
      have hg : Good ('\n' :: join ['\n'] (Ascii.renderedLines n s.board.pos)) := by
        have hc : ∀ c ∈ '\n' :: join ['\n'] (Ascii.renderedLines n s.board.pos), c = '\n' ∨ 32 ≤ c.toNat ∧ c.toNat < 127 := by
          intro c hc
          rcases List.mem_cons.1 hc with hc | hc
          · exact .inl hc
          · rcases mem_join hc with hc | ⟨x, hx, hc⟩
            · exact .inl (by simpa using hc)
            · exact .inr (rendered_char h25 _ x hx c hc)
        refine ⟨?_, ?_, blank_join _ (rendered_line h25 _), hlast⟩
        · intro c hm
          rcases hc c hm with rfl | hc
          · unfold Spec.IsControl; decide
          · unfold Spec.IsControl; omega
        · intro hm
          rcases hc _ hm with hc | hc
          · exact absurd hc (by decide)
          · exact absurd hc (by decide)
      have h1 : cleanResponse (some ("\n".toList ++ join ['\n'] (Ascii.renderedLines n s.board.pos) ++ "\n".toList)) =
          cleanResponse (some ('\n' :: join ['\n'] (Ascii.renderedLines n s.board.pos))) := by
        rw [cleanResponse_some, cleanResponse_some, rstrip_id hlast]
        rw [show "\n".toList ++ join ['\n'] (Ascii.renderedLines n s.board.pos) = '\n' :: join ['\n'] (Ascii.renderedLines n s.board.pos) from rfl,
          rstrip_spaces hlast (by decide +kernel)]
      rw [h1, clean_good_id hg]
    obtain ⟨d, hd, hround, _⟩ := C12_diagram_round_trip hb h25
    have hdd := hr.symm.trans hd
    injection hdd with hdd
    rw [hdd] at hclean
    refine ⟨_, d, ?_, hd, hclean, ?_⟩
    · unfold GS.showboard; rw [hd]
    · rw [hclean, interpret_newline]; exact hround
  · intro h25
    refine ⟨[], ?_⟩
    unfold GS.showboard
    rw [C12_render_too_big hb h25]

/-! ### the board size -/

/-- The board size, if it has changed, is an acceptable one. -/
def Sized (s x : GS) : Prop := x.acceptable = s.acceptable ∧ (x.boardSize = s.boardSize ∨ x.boardSize ∈ s.acceptable)

/-- The size and the sizes are the same. -/
def Same (s x : GS) : Prop := x.acceptable = s.acceptable ∧ x.boardSize = s.boardSize

theorem same_reset (s : GS) : Same s s.reset.1 := by
  unfold GS.reset; split <;> exact ⟨rfl, rfl⟩

theorem same_loop (l : List HistMove) : ∀ (s : GS) (ko : Option Pt) (pl : Option Colour), Same s (resetLoop s ko pl l).1 := by
  induction l with
  | nil => intro s ko pl; exact ⟨rfl, rfl⟩
  | cons m l ih =>
    intro s ko pl
    unfold resetLoop
    split
    · exact ih _ _ _
    · split
      · exact ⟨rfl, rfl⟩
      · exact ih _ _ _

theorem same_moves (s : GS) (l : List HistMove) : Same s (s.resetToMoves l).1 := by
  unfold GS.resetToMoves
  have h := same_loop l { s with board := s.base.copy } none none
  split
  · rename_i h'; rw [h'] at h; exact h
  · rename_i h'; rw [h'] at h; exact h

theorem Same.sized {s x : GS} (h : Same s x) : Sized s x := ⟨h.1, .inl h.2⟩

theorem Same.of {s x y : GS} {e : Option Exc} (h : Same s x) (he : x.reset = (y, e)) : Same s y := by
  have := same_reset x
  rw [he] at this
  exact ⟨this.1.trans h.1, this.2.trans h.2⟩

theorem Same.of_moves {s x y : GS} {l : List HistMove} {e : Option Exc} (h : Same s x) (he : x.resetToMoves l = (y, e)) : Same s y := by
  have := same_moves x l
  rw [he] at this
  exact ⟨this.1.trans h.1, this.2.trans h.2⟩

theorem same_rfl (s : GS) : Same s s := ⟨rfl, rfl⟩

theorem sized_load (env : Env) (s : GS) (mn : Option Int) (g : Sgf.SgfGame) : Sized s (s.loadGame env mn g).1 := by
  unfold GS.loadGame err exc
  split
  · exact (same_rfl s).sized
  · rename_i hg
    have hs : Sized s { s with boardSize := g.size } := ⟨rfl, .inr (by simpa using hg)⟩
    have hof : ∀ {y}, Same { s with boardSize := g.size } y → Sized s y := fun h => ⟨h.1, .inr (h.2.symm ▸ (by simpa using hg))⟩
    simp only
    split
    · exact hs
    · exact hs
    · split
      · exact hs
      · split
        · exact hs
        · exact hs
        · rename_i board plays _
          split
          · rename_i h'; exact hof (And.intro (Same.of_moves (s := { s with boardSize := g.size }) (x := GS.setHistoryBase { s with boardSize := g.size } board) ⟨rfl, rfl⟩ h').1 (Same.of_moves (s := { s with boardSize := g.size }) (x := GS.setHistoryBase { s with boardSize := g.size } board) ⟨rfl, rfl⟩ h').2)
          · rename_i h'
            have hs' := (Same.of_moves (s := { s with boardSize := g.size }) (x := GS.setHistoryBase { s with boardSize := g.size } board) ⟨rfl, rfl⟩ h')
            split
            · rename_i h''; exact hof (Same.of_moves (s := { s with boardSize := g.size }) (x := GS.setHistoryBase _ s.base) hs' h'')
            · rename_i h''; exact hof (Same.of_moves (s := { s with boardSize := g.size }) (x := GS.setHistoryBase _ s.base) hs' h'')
            · rename_i h''; exact hof (Same.of_moves (s := { s with boardSize := g.size }) (x := GS.setHistoryBase _ s.base) hs' h'')
          · rename_i h'; exact hof (And.intro (Same.of_moves (s := { s with boardSize := g.size }) (x := GS.setHistoryBase { s with boardSize := g.size } board) ⟨rfl, rfl⟩ h').1 (Same.of_moves (s := { s with boardSize := g.size }) (x := GS.setHistoryBase { s with boardSize := g.size } board) ⟨rfl, rfl⟩ h').2)

theorem step_sized (env : Env) (s : GS) (c : Cmd) (args : List Str) :
    Sized s (s.step env c args).1 ∧ (c ≠ .boardsize → c ≠ .loadsgf → Same s (s.step env c args).1) := by
  have hok : ∀ {x}, Same s x → Sized s x ∧ (c ≠ .boardsize → c ≠ .loadsgf → Same s x) := fun h => ⟨h.sized, fun _ _ => h⟩
  have hgen : ∀ args fr cl, Same s (s.handleGenmove env args fr cl).1 := by
    intro args fr cl
    unfold GS.handleGenmove err exc
    repeat' split
    all_goals first | exact ⟨rfl, rfl⟩ | skip
    all_goals simp only
    all_goals first | exact ⟨rfl, rfl⟩ | skip
    all_goals repeat' split
    all_goals exact ⟨rfl, rfl⟩
  cases c with
  | boardsize =>
    refine ⟨?_, fun h => absurd rfl h⟩
    show Sized s (s.boardsize args).1
    unfold GS.boardsize err exc
    split
    · exact (same_rfl s).sized
    · split
      · exact (same_rfl s).sized
      · rename_i k _
        split
        · exact (same_rfl s).sized
        · rename_i hk
          have hof : ∀ {y}, Same { s with boardSize := k } y → Sized s y := fun h => ⟨h.1, .inr (h.2.symm ▸ (by simpa using hk))⟩
          split
          · rename_i h'; exact hof (Same.of (x := { s with boardSize := k }) ⟨rfl, rfl⟩ h')
          · rename_i h'; exact hof (Same.of (x := { s with boardSize := k }) ⟨rfl, rfl⟩ h')
  | clearBoard =>
    refine hok ?_
    show Same s (s.clearBoard args).1
    unfold GS.clearBoard exc
    split <;> (rename_i h'; exact (same_rfl s).of h')
  | komi =>
    refine hok ?_
    show Same s (s.setKomi env args).1
    unfold GS.setKomi err
    repeat' split
    all_goals exact ⟨rfl, rfl⟩
  | fixedHandicap =>
    refine hok ?_
    show Same s (s.fixedHandicap args).1
    unfold GS.fixedHandicap err exc
    repeat' split
    all_goals first | exact ⟨rfl, rfl⟩ | skip
    all_goals simp only
    all_goals repeat' split
    all_goals exact ⟨rfl, rfl⟩
  | setFreeHandicap =>
    refine hok ?_
    show Same s (s.setFreeHandicap args).1
    unfold GS.setFreeHandicap err exc
    repeat' split
    all_goals first | exact ⟨rfl, rfl⟩ | skip
    all_goals simp only
    all_goals repeat' split
    all_goals first | exact ⟨rfl, rfl⟩ | skip
    all_goals first | exact (same_rfl s).of (e := none) (by assumption) | exact (same_rfl s).of (e := some _) (by assumption)
  | placeFreeHandicap =>
    refine hok ?_
    show Same s (s.placeFreeHandicap args).1
    unfold GS.placeFreeHandicap err exc
    repeat' split
    all_goals first | exact ⟨rfl, rfl⟩ | skip
    all_goals simp only
    all_goals repeat' split
    all_goals first | exact ⟨rfl, rfl⟩ | skip
    all_goals first | exact (same_rfl s).of (e := none) (by assumption) | exact (same_rfl s).of (e := some _) (by assumption)
  | play =>
    refine hok ?_
    show Same s (s.play args).1
    unfold GS.play err exc
    repeat' split
    all_goals exact ⟨rfl, rfl⟩
  | genmove => exact hok (hgen _ _ _)
  | genmoveEx =>
    refine hok ?_
    show Same s (s.genmoveEx env args).1
    unfold GS.genmoveEx
    split
    · exact ⟨rfl, rfl⟩
    · exact hgen _ _ _
  | regGenmove => exact hok (hgen _ _ _)
  | undo =>
    refine hok ?_
    show Same s (s.undo args).1
    unfold GS.undo err exc
    split
    · exact ⟨rfl, rfl⟩
    · split <;> (rename_i h'; exact (same_rfl s).of_moves h')
  | loadsgf =>
    refine ⟨?_, fun _ h => absurd rfl h⟩
    show Sized s (s.loadsgf env args).1
    unfold GS.loadsgf err exc
    split
    · exact (same_rfl s).sized
    · split
      · exact (same_rfl s).sized
      · split
        · exact (same_rfl s).sized
        · split
          · exact (same_rfl s).sized
          · exact (same_rfl s).sized
          · exact sized_load _ _ _ _
  | timeLeft =>
    refine hok ?_
    show Same s (s.timeLeft args).1
    unfold GS.timeLeft err
    repeat' split
    all_goals exact ⟨rfl, rfl⟩
  | timeSettings =>
    refine hok ?_
    show Same s (s.setTime args).1
    unfold GS.setTime err
    repeat' split
    all_goals exact ⟨rfl, rfl⟩
  | explainLastMove =>
    refine hok ?_
    show Same s (s.explainLastMove args).1
    unfold GS.explainLastMove
    split <;> exact ⟨rfl, rfl⟩

theorem Lived.sizes {acceptable : List Int} {s : GS} (h : Lived acceptable s) : s.acceptable = acceptable ∧ s.boardSize ∈ acceptable := by
  induction h with
  | start h =>
    unfold GS.init at h
    simp only [bind, Except.bind, pure, Except.pure] at h
    split at h
    · simp at h
    · rename_i size hsize
      split at h
      · simp at h
      · simp at h; subst h
        refine ⟨rfl, ?_⟩
        cases hm : acceptable.min? with
        | none => rw [hm] at hsize; exact nomatch hsize
        | some m =>
          rw [hm] at hsize
          injection hsize with hsize
          subst hsize
          exact (List.min?_eq_some_iff.1 hm).1
  | @step s s' env c args o _ hstep _ ih =>
    have hs := (step_sized env s c args).1
    rw [hstep] at hs
    refine ⟨hs.1.trans ih.1, ?_⟩
    rcases hs.2 with h | h
    · show s'.boardSize ∈ acceptable; rw [show s'.boardSize = s.boardSize from h]; exact ih.2
    · exact ih.1 ▸ h

/-- In these circumstances no failing command can change the board size (only loadsgf might). -/
def Steady (env : Env) (acceptable : List Int) : Prop :=
  ∀ s, Lived acceptable s → ∀ c args, Failed (s.step env c args).2 → (s.step env c args).1.boardSize = s.boardSize

/-- C94: no failing command changes the board size, if there's only one acceptable size, or there are no files, or each readable SGF file of an acceptable size
has a valid komi, setup position and moves. -/
theorem C94_steady (env : Env) (acceptable : List Int)
    (h : (∃ k, acceptable = [k]) ∨ (∀ path, env.file path = none) ∨
      ∀ path text game, env.file path = some text → Sgf.SgfGame.fromString env.codec text = .ok game → game.size ∈ acceptable →
        (∃ komi, game.getKomi env.readFloat = .ok komi) ∧
        ∃ b plays, Sgf.getSetupAndMoves game.size game.tree.mainSequence = .ok (b, plays) ∧ AllLegal game.size.toNat b.pos plays) :
    Steady env acceptable := by
  intro s hs c args hf
  obtain ⟨n, hi⟩ := hs.inv
  have hsz := step_sized env s c args
  by_cases hb : c = .boardsize
  · subst hb
    rcases boardsize_spec hi (Prod.eta _).symm with ⟨_, h1⟩ | ⟨h1, _⟩
    · exact congrArg GS.boardSize h1
    · exact absurd hf h1
  · by_cases hl : c = .loadsgf
    · subst hl
      rcases loadsgf_spec (env := env) hi (Prod.eta (s.loadsgf env args)).symm with ⟨h1, _, h2⟩ | ⟨h1, _⟩
      · rcases h2 with h2 | ⟨path, rest, text, game, h3, h4, h5, h6⟩
        · exact h2
        · rcases h with ⟨k, rfl⟩ | h | h
          · rcases hsz.1.2 with h7 | h7
            · exact h7
            · have h8 := hs.sizes
              rw [h8.1] at h7
              simp only [List.mem_singleton] at h7
              have h9 := h8.2
              simp only [List.mem_singleton] at h9
              rw [h7, h9]
          · rw [h path] at h4; exact nomatch h4
          · by_cases hg : game.size ∈ acceptable
            · obtain ⟨⟨komi, hk⟩, b, plays, hp, hal⟩ := h path text game h4 h5 hg
              by_cases hmn : ∃ mn, IsMoveNumber rest mn
              · obtain ⟨mn, hmn⟩ := hmn
                have hacc : Succeeds env n s .loadsgf args := by
                  rw [h3]
                  refine .loadsgf hmn h4 h5 (hs.sizes.1.symm ▸ hg) hk hp ?_
                  cases mn with
                  | none => exact hal
                  | some j =>
                    intro l c p r he
                    refine hal l c p (r ++ plays.drop (j - 1).toNat) ?_
                    rw [← List.cons_append, ← List.append_assoc, ← he]
                    exact (List.take_append_drop _ _).symm
                exact absurd ((C94_outcome hs hi.size env .loadsgf args).1.1 hacc) hf
              · show (s.loadsgf env args).1.boardSize = s.boardSize
                subst h3
                unfold GS.loadsgf
                cases rest with
                | nil => exact absurd ⟨none, .inl ⟨rfl, rfl⟩⟩ hmn
                | cons a r =>
                  cases ha : interpretInt a with
                  | none => simp only [ha]; rfl
                  | some j => exact absurd ⟨some j, .inr ⟨a, r, j, rfl, (C62_int a j).1 ha, rfl⟩⟩ hmn
            · rcases hsz.1.2 with h7 | h7
              · exact h7
              · rw [hs.sizes.1] at h7
                exact absurd (h6 ▸ h7) hg
      · exact absurd hf h1
    · exact (hsz.2 hb hl).2

/-- C94: the size of the board is always one of the acceptable ones. -/
theorem C94_size {acceptable : List Int} {s : GS} (h : Lived acceptable s) : s.boardSize ∈ acceptable ∧ s.acceptable = acceptable :=
  ⟨h.sizes.2, h.sizes.1⟩

/-! ### sessions -/

section
variable {ρ : Type}

/-- C94: what an engine made from a Gtp_state answers to the state's commands: `=` just when the command should succeed; the session is ended just when the
command breaks and handler exceptions are fatal. -/
theorem C94_response (P : StateEngine ρ) {acceptable : List Int} {s : GS} (h : Lived acceptable s) {n : Nat} (hn : s.boardSize = n) (w : ρ)
    {command : Str} {c : Cmd} (hc : stateCommands.lookup command = some c) (args : List Str) :
    ((P.run (s, w) command args).1.1 = false ↔ Succeeds (P.env w) n s c args) ∧
    ((P.run (s, w) command args).1.2.2 = true ↔ P.fatal = true ∧ Breaks (P.env w) n s c args) ∧
    (P.run (s, w) command args).2.1 = (s.step (P.env w) c args).1 := by
  rw [run_state P hc]
  refine ⟨?_, ?_, rfl⟩
  · rcases verdict (env := P.env w) (h.inv_of hn) c args with ⟨h1, h2, r, h3⟩ | ⟨h1, h2, r, h3⟩ | ⟨h1, h2, r, h3⟩
    · rw [h3]; exact ⟨fun _ => h1, fun _ => rfl⟩
    · rw [h3]
      refine ⟨fun hx => ?_, fun hx => absurd hx h2⟩
      cases hf : P.fatal <;> rw [hf] at hx <;> exact nomatch hx
    · rw [h3]; exact ⟨fun hx => (nomatch hx), fun hx => absurd hx h1⟩
  · rcases verdict (env := P.env w) (h.inv_of hn) c args with ⟨h1, h2, r, h3⟩ | ⟨h1, h2, r, h3⟩ | ⟨h1, h2, r, h3⟩
    · rw [h3]; exact ⟨fun hx => (nomatch hx), fun hx => absurd hx.2 h2⟩
    · rw [h3]
      cases hf : P.fatal with
      | true => exact ⟨fun _ => ⟨rfl, h1⟩, fun _ => rfl⟩
      | false => exact ⟨fun hx => (nomatch hx), fun hx => (nomatch hx.1)⟩
    · rw [h3]; exact ⟨fun hx => (nomatch hx), fun hx => absurd hx.2 h2⟩

theorem run_lived (P : StateEngine ρ) {acceptable : List Int} (hst : ∀ w, Steady (P.env w) acceptable) {s : GS} {w : ρ} (h : Lived acceptable s)
    (command : Str) (args : List Str) : Lived acceptable (P.run (s, w) command args).2.1 := by
  cases hc : stateCommands.lookup command with
  | some c =>
    rw [run_state P hc]
    exact .step (env := P.env w) h (Prod.eta _).symm (hst w s h c args)
  | none =>
    unfold StateEngine.run
    rw [hc]
    exact h

/-- C94: in a session with an engine made from a Gtp_state, whatever is sent to it and whatever becomes of its output: each answer written is the answer to
one of the lines read, by the engine in a state to which C94_outcome and C94_response apply; and so they do for the state it's left in. -/
theorem C94_session (P : StateEngine ρ) {acceptable : List Int} (hst : ∀ w, Steady (P.env w) acceptable) {ω : Type}
    {write : Str → ω → Option Session.FileExc × ω} {flush : ω → Option Session.FileExc × ω} {e e' : GS × ρ} {d d' : ω} {lines unread : List Str}
    {evs : List Session.Ev} {st : Session.Status} (h0 : Lived acceptable e.1)
    (ht : Session.Talk P.run write flush e d lines evs st e' d' unread) :
    Lived acceptable e'.1 ∧
    ∀ r, Session.Ev.write r ∈ evs → ∃ (line command : Str) (id : Option Str) (args : List Str) (s : GS) (w : ρ), line ∈ lines ∧
      Session.Ev.read line ∈ evs ∧ Asks line id command args ∧ Lived acceptable s ∧
      r = Spec.responseText (P.run (s, w) command args).1.1 id (P.run (s, w) command args).1.2.1 := by
  induction ht with
  | eof => exact ⟨h0, by simp⟩
  | skip _ _ ih =>
    obtain ⟨h1, h2⟩ := ih h0
    refine ⟨h1, fun r hr => ?_⟩
    rcases List.mem_cons.1 hr with hr | hr
    · exact nomatch hr
    · obtain ⟨line, command, id, args, s, w, h3, h4, h5⟩ := h2 r hr
      exact ⟨line, command, id, args, s, w, List.mem_cons_of_mem _ h3, List.mem_cons_of_mem _ h4, h5⟩
  | @answer e e1 e' d d1 d2 d' line c text id args err rest unread evs st ha hrun _ _ _ ih =>
    have hl := run_lived P hst (w := e.2) h0 c args
    rw [show (e.1, e.2) = e from rfl, hrun] at hl
    obtain ⟨h1, h2⟩ := ih hl
    refine ⟨h1, fun r hr => ?_⟩
    rcases List.mem_cons.1 hr with hr | hr
    · exact nomatch hr
    · rcases List.mem_cons.1 hr with hr | hr
      · injection hr with hr
        exact ⟨line, c, id, args, e.1, e.2, by simp, by simp, ha, h0, by rw [show (e.1, e.2) = e from rfl, hrun]; exact hr⟩
      · rcases List.mem_cons.1 hr with hr | hr
        · exact nomatch hr
        · obtain ⟨line, command, id, args, s, w, h3, h4, h5⟩ := h2 r hr
          exact ⟨line, command, id, args, s, w, List.mem_cons_of_mem _ h3, by simp [h4], h5⟩
  | @quit e e1 d d1 d2 line c text id args err rest ha hrun _ _ =>
    have hl := run_lived P hst (w := e.2) h0 c args
    rw [show (e.1, e.2) = e from rfl, hrun] at hl
    refine ⟨hl, fun r hr => ?_⟩
    have hr : r = Spec.responseText err id text := by simpa using hr
    exact ⟨line, c, id, args, e.1, e.2, by simp, by simp, ha, h0, by rw [show (e.1, e.2) = e from rfl, hrun]; exact hr⟩
  | @noWrite e e1 d d1 line c text id args err fin rest x y ha hrun _ _ =>
    have hl := run_lived P hst (w := e.2) h0 c args
    rw [show (e.1, e.2) = e from rfl, hrun] at hl
    refine ⟨hl, fun r hr => ?_⟩
    have hr : r = Spec.responseText err id text := by simpa using hr
    exact ⟨line, c, id, args, e.1, e.2, by simp, by simp, ha, h0, by rw [show (e.1, e.2) = e from rfl, hrun]; exact hr⟩
  | @noFlush e e1 d d1 d2 line c text id args err fin rest x y ha hrun _ _ _ =>
    have hl := run_lived P hst (w := e.2) h0 c args
    rw [show (e.1, e.2) = e from rfl, hrun] at hl
    refine ⟨hl, fun r hr => ?_⟩
    have hr : r = Spec.responseText err id text := by simpa using hr
    exact ⟨line, c, id, args, e.1, e.2, by simp, by simp, ha, h0, by rw [show (e.1, e.2) = e from rfl, hrun]; exact hr⟩

/-- C94: an engine with showboard among its handlers shows the board, and the position isn't changed. -/
theorem C94_show (env : ρ → Env) (next : ρ → GS → Str → List Str → ρ) (other : Str → Option (ρ → GS → List Str → Outcome)) (fatal : Bool)
    {acceptable : List Int} {s : GS} (h : Lived acceptable s) {n : Nat} (hn : s.boardSize = n) (h25 : n ≤ 25) (w : ρ) (args : List Str) :
    ∃ d, Ascii.renderBoard s.board = .ok d ∧ Ascii.interpretDiagram ('\n' :: d) n none = .ok s.board ∧
      (statePlayer env next other fatal).run (s, w) "showboard".toList args = ((false, '\n' :: d, false), (s, next w s "showboard".toList args)) := by
  obtain ⟨t, d, h1, h2, h3, h4⟩ := (C94_showboard h hn args).1 h25
  refine ⟨d, h2, h3 ▸ h4, ?_⟩
  unfold StateEngine.run
  have hl : stateCommands.lookup "showboard".toList = none := by decide +kernel
  rw [hl]
  unfold Engine.runCommand Engine.doCommand statePlayer
  simp only [if_true, Option.map_some, h1, h3]

end

/-! ### a concrete case -/

/-- A state with a game in progress on a 3×3 board (for which there's no handicap layout). -/
def midGame : GS := (runAll testEnv testGS koCmds).getD testGS

theorem midGame_lived : Lived [3, 9] midGame := by
  have hs : (runAll testEnv testGS koCmds).isSome = true := by decide +kernel
  obtain ⟨s, hs⟩ := Option.isSome_iff_exists.1 hs
  have : midGame = s := by unfold midGame; rw [hs]; rfl
  rw [this]
  exact (runAll_reached koCmds testGS_reached hs).lived

/-- The tag of an outcome. -/
def kindOf : Outcome → Nat
  | .value _ => 0
  | .gtpError _ => 1
  | .exception _ => 2
  | _ => 3

/-- C94 witness: commands of each kind: a play which succeeds (B3), one which doesn't (A2 is occupied), a size which isn't acceptable, a loadsgf of a file with a
bad komi; on an empty 3×3 board, place_free_handicap breaks; on 9×9, asking for 20 stones gives nine, with a recorded handicap of 20. -/
theorem C94_witness :
    Lived [3, 9] midGame ∧ midGame.boardSize = 3 ∧ Succeeds testEnv 3 midGame .play ["w".toList, "b3".toList] ∧
    ¬ Succeeds testEnv 3 midGame .play ["w".toList, "A2".toList] ∧ ¬ Succeeds testEnv 3 midGame .boardsize ["19".toList] ∧
    ¬ Succeeds testEnv 3 midGame .loadsgf ["f".toList] ∧
    Breaks testEnv 3 testGS .placeFreeHandicap ["2".toList] ∧
    ((runAll testEnv testGS [(.boardsize, ["9"]), (.placeFreeHandicap, ["20"])]).map (fun s => (s.handicap, (s.board.rows.flatten.filter (·.isSome)).length))) =
      some (some 20, 9) := by
  have hz : midGame.boardSize = (3 : Nat) := by decide +kernel
  have hz' : testGS.boardSize = (3 : Nat) := by decide +kernel
  have key : ∀ {s : GS}, Lived [3, 9] s → s.boardSize = (3 : Nat) → ∀ c args,
      (kindOf (s.step testEnv c args).2 = 0 → Succeeds testEnv 3 s c args) ∧ (kindOf (s.step testEnv c args).2 = 1 → ¬ Succeeds testEnv 3 s c args) ∧
      (kindOf (s.step testEnv c args).2 = 2 → Breaks testEnv 3 s c args) := by
    intro s hs hz c args
    have h := C94_outcome hs hz testEnv c args
    cases ho : (s.step testEnv c args).2 with
    | value r => exact ⟨fun _ => h.1.2 ⟨r, ho⟩, fun hx => (nomatch hx), fun hx => (nomatch hx)⟩
    | gtpError m => exact ⟨fun hx => (nomatch hx), fun _ => (h.2.2.2 ⟨m, ho⟩).1, fun hx => (nomatch hx)⟩
    | exception tb => exact ⟨fun hx => (nomatch hx), fun hx => (nomatch hx), fun _ => h.2.1.2 ⟨tb, ho⟩⟩
    | gtpQuit m => exact ⟨fun hx => (nomatch hx), fun hx => (nomatch hx), fun hx => (nomatch hx)⟩
    | gtpFatalError m => exact ⟨fun hx => (nomatch hx), fun hx => (nomatch hx), fun hx => (nomatch hx)⟩
  refine ⟨midGame_lived, hz, (key midGame_lived hz _ _).1 (by decide +kernel), (key midGame_lived hz _ _).2.1 (by decide +kernel),
    (key midGame_lived hz _ _).2.1 (by decide +kernel), (key midGame_lived hz _ _).2.1 (by decide +kernel),
    (key testGS_reached.lived hz' _ _).2.2 (by decide +kernel), by decide +kernel⟩

end Gomill.Gtp
