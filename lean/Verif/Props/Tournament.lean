import Verif.Lemmas.GameId
import Verif.Model.TournamentResults
import Mathlib.Tactic.Ring
import Mathlib.Tactic.Linarith
import Mathlib.Data.Rat.Cast.Order
/-
C37-C40: gomill/tournaments.py, allplayalls.py, playoffs.py, tournament_results.py.
-/
namespace Gomill.Tourn
open Py

/-! ## C40: game ids -/

/-- C40: a game id is the matchup id, an underscore, and a numeral for the game number. -/
theorem C40_value (m : Matchup) (n : Nat) : GameIdOf m.id n (m.makeGameId n) := gameIdOf_make m n

/-- C40: an id names only one game: even for different matchups, or if the number of games (so the padding) has been
changed in the control file. -/
theorem C40_injective (m m' : Matchup) (n n' : Nat) (h : m.makeGameId n = m'.makeGameId n') : m.id = m'.id ∧ n = n' :=
  gameIdOf_inj (gameIdOf_make m n) (h ▸ gameIdOf_make m' n')

/-- C40: constant width, for games below the number of games. -/
theorem C40_width (m : Matchup) (c : Int) (hm : m.numberOfGames = some c) (a b : Nat) (ha : (a : Int) < c) (hb : (b : Int) < c) :
    (m.makeGameId a).length = (m.makeGameId b).length := by
  unfold Matchup.makeGameId formatNumber
  rw [hm]
  simp only [List.length_append, List.length_cons, padNat_length ha, padNat_length hb]

/-- C40: the ids sort (as Python strings) in game order. -/
theorem C40_sorted (m : Matchup) (c : Int) (hm : m.numberOfGames = some c) (a b : Nat) (hab : a < b) (hb : (b : Int) < c) :
    m.makeGameId a < m.makeGameId b := by
  have ha : (a : Int) < c := by omega
  unfold Matchup.makeGameId formatNumber
  rw [hm]
  have key : padNat (zeroWidth (some c)) a < padNat (zeroWidth (some c)) b :=
    digits_lt (by rw [padNat_length ha, padNat_length hb]) (fun _ h => padNat_digits h) (fun _ h => padNat_digits h)
      (by rw [padNat_value, padNat_value]; exact hab)
  generalize m.id = l
  induction l with
  | nil =>
    rw [List.nil_append, List.nil_append, List.cons_lt_cons_iff]
    exact Or.inr ⟨rfl, key⟩
  | cons x l ih =>
    rw [List.cons_append, List.cons_append, List.cons_lt_cons_iff]
    exact Or.inr ⟨rfl, ih⟩

/-- C40: with no limit there is no padding; with a limit, no more padding than needed for the last game. -/
theorem C40_padding (m : Matchup) (n : Nat) :
    (m.numberOfGames = none → m.makeGameId n = m.id ++ '_' :: strInt n) ∧
    (∀ c : Int, m.numberOfGames = some c → c - 1 = n → m.makeGameId n = m.id ++ '_' :: strInt n) := by
  unfold Matchup.makeGameId formatNumber
  constructor
  · intro h
    rw [h, strInt_natCast]
    simp [padNat, zeroWidth]
  · intro c h hc
    rw [h]
    simp [padNat, zeroWidth, hc, strInt_natCast]

theorem C40_witness :
    let m : Matchup := ⟨"0".toList, "a".toList, "b".toList, true, some 101⟩
    (m.makeGameId 7 = "0_007".toList ∧ m.makeGameId 100 = "0_100".toList) ∧ (m.makeGameId 7 < m.makeGameId 100) := by
  decide +kernel

/-! ## C37: colours -/

/-- C37: who plays which colour in the game a tournament hands out for number `n`. -/
theorem C37_colours (m : Matchup) (n : Nat) :
    (m.alternating = false → (m.job n).playerB = m.player1 ∧ (m.job n).playerW = m.player2) ∧
    (m.alternating = true → n % 2 = 0 → (m.job n).playerB = m.player1 ∧ (m.job n).playerW = m.player2) ∧
    (m.alternating = true → n % 2 = 1 → (m.job n).playerB = m.player2 ∧ (m.job n).playerW = m.player1) ∧
    (m.job n).matchupId = m.id ∧ (m.job n).number = n ∧ (m.job n).gameId = m.makeGameId n := by
  unfold Matchup.job
  refine ⟨?_, ?_, ?_, ?_⟩
  · intro h; simp [h]
  · intro h hn; simp [h, hn]
  · intro h hn; simp [h, hn]
  · split <;> exact ⟨rfl, rfl, rfl⟩

/-- C37: every game get_game() hands out is such a game of one of the matchups in the control file. -/
theorem C37_get_game (t t' : State) (j : Job) (h : t.getGame = (.ok (some j), t')) :
    ∃ m ∈ t.comp.matchups, ∃ n, j = m.job n := by
  unfold State.getGame at h
  split at h
  · simp at h
  · rename_i id n g _
    split at h
    · simp at h
    · rename_i m hm
      simp only [Prod.mk.injEq, Except.ok.injEq, Option.some.injEq] at h
      exact ⟨m, List.mem_of_find?_eq_some hm, n, h.1.symm⟩

/-- C37: among the first `k` games of an alternating matchup, each player has black in half of them (the first player in
one more if `k` is odd). -/
theorem C37_balance (m : Matchup) (ha : m.alternating = true) (hp : m.player1 ≠ m.player2) (k : Nat) :
    ((List.range k).countP (fun n => (m.job n).playerB = m.player1)) = (k + 1) / 2 ∧
    ((List.range k).countP (fun n => (m.job n).playerB = m.player2)) = k / 2 := by
  have key : ∀ n, ((m.job n).playerB = m.player1 ↔ n % 2 = 0) ∧ ((m.job n).playerB = m.player2 ↔ n % 2 = 1) := by
    intro n
    obtain ⟨_, h1, h2, _⟩ := C37_colours m n
    rcases Nat.mod_two_eq_zero_or_one n with hn | hn
    · rw [(h1 ha hn).1, hn]; simp [hp]
    · rw [(h2 ha hn).1, hn]; simp [Ne.symm hp]
  induction k with
  | zero => simp
  | succ k ih =>
    rw [List.range_succ, List.countP_append, List.countP_append, ih.1, ih.2]
    simp only [List.countP_cons, List.countP_nil, Nat.zero_add, decide_eq_true_eq, (key k).1, (key k).2]
    rcases Nat.mod_two_eq_zero_or_one k with hk | hk <;> simp [hk] <;> omega

theorem C37_witness :
    let m : Matchup := ⟨"0".toList, "a".toList, "b".toList, true, none⟩
    ((List.range 5).map (fun n => (m.job n).playerB)) = ["a".toList, "b".toList, "a".toList, "b".toList, "a".toList] := by
  decide +kernel

/-! ## C38: statistics -/

theorem countIf_cons (p : GameResult → Bool) (r : GameResult) (l : List GameResult) :
    (countIf p (r :: l) : Rat) = countIf p l + (if p r then 1 else 0) := by
  unfold countIf
  rw [List.countP_cons]
  split <;> simp

theorem jigoScore_cons (r : GameResult) (l : List GameResult) :
    jigoScore (r :: l) = jigoScore l + (if r.res.isJigo then 1/2 else 0) := by
  unfold jigoScore
  rw [countIf_cons]
  split <;> ring

/-- The four possible kinds of result between two different players. -/
theorem between_cases {p1 p2 : Str} (hp : p1 ≠ p2) {r : GameResult} (h : Between p1 p2 r) :
    (r.res.winningColour = none ∧ r.winningPlayer = none) ∨
    (∃ c, r.res.winningColour = some c ∧ r.res.isJigo = false ∧
      ((r.winningPlayer = some p1 ∧ r.winningPlayer ≠ some p2) ∨ (r.winningPlayer = some p2 ∧ r.winningPlayer ≠ some p1))) := by
  obtain ⟨h1, h2, h3, h4⟩ := h
  cases hw : r.res.winningColour with
  | none => left; rw [hw] at h2; exact ⟨rfl, h2⟩
  | some c =>
    right
    refine ⟨c, rfl, ?_, ?_⟩
    · cases hj : r.res.isJigo with
      | false => rfl
      | true => have := h3 hj; rw [hw] at this; simp at this
    · rw [hw, h1] at h2
      rcases h4 with ⟨hb, hw'⟩ | ⟨hb, hw'⟩ <;> cases c <;> simp only [playerGet, hb, hw'] at h2 <;> rw [h2] <;>
        simp [hp, Ne.symm hp]

/-- C38: for games between two different players, every game is a win for one of them, a jigo counting half to each, or
unknown. -/
theorem C38_totals (p1 p2 : Str) (hp : p1 ≠ p2) (l : List GameResult) (hl : ∀ r ∈ l, Between p1 p2 r) :
    let s := matchupStats l p1 p2
    s.total = l.length ∧ s.wins1 + s.wins2 + s.unknown = s.total ∧ 0 ≤ s.wins1 ∧ 0 ≤ s.wins2 ∧
    (∃ k : Nat, s.wins1 = k / 2) ∧ (∃ k : Nat, s.wins2 = k / 2) ∧
    (s.forfeits1 : Rat) ≤ s.wins2 ∧ (s.forfeits2 : Rat) ≤ s.wins1 := by
  intro s
  have hj : 0 ≤ jigoScore l := by
    unfold jigoScore
    have : (0 : Rat) ≤ (countIf (fun r => r.res.isJigo) l : Rat) := by exact_mod_cast Nat.zero_le _
    linarith
  have hn : ∀ p, (0 : Rat) ≤ (countIf p l : Rat) := fun p => by exact_mod_cast Nat.zero_le _
  have hk : ∀ p : GameResult → Bool, ∃ k : Nat, (countIf p l : Rat) + jigoScore l = k / 2 := by
    intro p
    refine ⟨2 * countIf p l + countIf (fun r => r.res.isJigo) l, ?_⟩
    unfold jigoScore
    push_cast; ring
  have hf : ∀ p : Str, (countIf (fun r => r.winningPlayer = some p && r.res.isForfeit) l : Rat) ≤
      countIf (fun r => r.winningPlayer = some p) l := by
    intro p
    have : countIf (fun r => r.winningPlayer = some p && r.res.isForfeit) l ≤ countIf (fun r => r.winningPlayer = some p) l := by
      apply List.countP_mono_left
      intro r _ h
      simp only [Bool.and_eq_true] at h; exact h.1
    exact_mod_cast this
  refine ⟨rfl, ?_, add_nonneg (hn _) hj, add_nonneg (hn _) hj, hk _, hk _, ?_, ?_⟩
  · show ((countIf (fun r => r.winningPlayer = some p1) l : Rat) + jigoScore l) +
      ((countIf (fun r => r.winningPlayer = some p2) l : Rat) + jigoScore l) + countIf (fun r => r.res.isUnknown) l
      = (l.length : Rat)
    clear s hj hn hk hf
    induction l with
    | nil => simp [countIf, jigoScore]
    | cons r l ih =>
      have ih' := ih (fun x hx => hl x (List.mem_cons_of_mem _ hx))
      have hc := between_cases hp (hl r (by simp))
      rw [countIf_cons, countIf_cons, countIf_cons, jigoScore_cons]
      rw [List.length_cons]
      push_cast
      rcases hc with ⟨h1, h2⟩ | ⟨c, h1, h2, h3⟩
      · have hu : r.res.isUnknown = !r.res.isJigo := by simp [Res.isUnknown, h1]
        rw [hu, h2]
        cases hj : r.res.isJigo <;> simp <;> linarith
      · have hu : r.res.isUnknown = false := by simp [Res.isUnknown, h1]
        rw [hu, h2]
        rcases h3 with ⟨h3, h4⟩ | ⟨h3, h4⟩ <;> rw [h3] at h4 ⊢ <;> simp at h4 <;> simp [h4, hp, Ne.symm hp] <;> linarith
  · exact le_trans (hf p2) (by show (_ : Rat) ≤ _ + jigoScore l; linarith)
  · exact le_trans (hf p1) (by show (_ : Rat) ≤ _ + jigoScore l; linarith)

/-- C38: the numbers of games by colour are right. -/
theorem C38_played (p1 p2 : Str) (hp : p1 ≠ p2) (l : List GameResult) (hl : ∀ r ∈ l, Between p1 p2 r) :
    let b := colourBreakdown l p1 p2
    b.played1b + b.played1w = l.length ∧ b.played2b + b.playedY2 = l.length ∧ b.played1b = b.playedY2 ∧
    b.played1w = b.played2b ∧
    (b.alternating = true ↔ (∃ r ∈ l, r.playerB = p1) ∧ (∃ r ∈ l, r.playerB = p2)) := by
  have hplayed : countIf (fun r => r.playerB = p1) l + countIf (fun r => r.playerW = p1) l = l.length ∧
      countIf (fun r => r.playerB = p1) l = countIf (fun r => r.playerW = p2) l ∧
      countIf (fun r => r.playerW = p1) l = countIf (fun r => r.playerB = p2) l := by
    unfold countIf
    induction l with
    | nil => simp
    | cons r l ih =>
      obtain ⟨h1, h2, h3⟩ := ih (fun x hx => hl x (List.mem_cons_of_mem _ hx))
      obtain ⟨_, _, _, h⟩ := hl r (by simp)
      rw [List.countP_cons, List.countP_cons, List.countP_cons, List.countP_cons, List.length_cons]
      rcases h with ⟨ha, hb⟩ | ⟨ha, hb⟩ <;> simp only [ha, hb] <;> simp [hp, Ne.symm hp] <;> omega
  obtain ⟨h1, h2, h3⟩ := hplayed
  have e1 : (∃ r ∈ l, r.playerB = p1) ↔ countIf (fun r => r.playerB = p1) l ≠ 0 := by
    unfold countIf; rw [Nat.ne_zero_iff_zero_lt, List.countP_pos_iff]; simp
  have e2 : (∃ r ∈ l, r.playerB = p2) ↔ countIf (fun r => r.playerB = p2) l ≠ 0 := by
    unfold countIf; rw [Nat.ne_zero_iff_zero_lt, List.countP_pos_iff]; simp
  unfold colourBreakdown
  simp only
  rw [e1, e2]
  split
  · refine ⟨h1, by rw [← h3, ← h2, Nat.add_comm]; exact h1, h2, h3, ?_⟩; simp; omega
  · split
    · refine ⟨h1, by rw [← h3, ← h2, Nat.add_comm]; exact h1, h2, h3, ?_⟩; simp; omega
    · refine ⟨h1, by rw [← h3, ← h2, Nat.add_comm]; exact h1, h2, h3, ?_⟩; simp; omega

/-- C38 (partial): how the breakdown of wins by colour adds up: exactly, if there are no jigos (`jigoScore l = 0`).
Otherwise the jigo score is added in to both the black and the white wins of each player, so each player's wins by
colour add up to more than the player's wins. -/
theorem C38_colour_breakdown_partial (p1 p2 : Str) (hp : p1 ≠ p2) (l : List GameResult) (hl : ∀ r ∈ l, Between p1 p2 r)
    (w : ColourWins) (hw : (colourBreakdown l p1 p2).wins = some w) :
    w.wins1b + w.wins1w = (matchupStats l p1 p2).wins1 + jigoScore l ∧
    w.wins2b + w.wins2w = (matchupStats l p1 p2).wins2 + jigoScore l ∧
    w.wins1b + w.wins2b = w.winsB + jigoScore l ∧ w.wins1w + w.wins2w = w.winsW + jigoScore l ∧
    w.winsB + w.winsW + (matchupStats l p1 p2).unknown = (matchupStats l p1 p2).total := by
  have hw' : w = colourWins l p1 p2 := by
    unfold colourBreakdown at hw
    simp only at hw
    split at hw
    · simp at hw
    · split at hw
      · simp at hw
      · simpa using hw.symm
  subst hw'
  have key : (countIf (fun r => r.winningPlayer = some p1 && r.res.winningColour = some .b) l : Rat) +
        countIf (fun r => r.winningPlayer = some p1 && r.res.winningColour = some .w) l
        = countIf (fun r => r.winningPlayer = some p1) l ∧
      (countIf (fun r => r.winningPlayer = some p2 && r.res.winningColour = some .b) l : Rat) +
        countIf (fun r => r.winningPlayer = some p2 && r.res.winningColour = some .w) l
        = countIf (fun r => r.winningPlayer = some p2) l ∧
      (countIf (fun r => r.winningPlayer = some p1 && r.res.winningColour = some .b) l : Rat) +
        countIf (fun r => r.winningPlayer = some p2 && r.res.winningColour = some .b) l
        = countIf (fun r => r.res.winningColour = some .b) l ∧
      (countIf (fun r => r.winningPlayer = some p1 && r.res.winningColour = some .w) l : Rat) +
        countIf (fun r => r.winningPlayer = some p2 && r.res.winningColour = some .w) l
        = countIf (fun r => r.res.winningColour = some .w) l := by
    clear hw
    induction l with
    | nil => simp [countIf]
    | cons r l ih =>
      obtain ⟨h1, h2, h3, h4⟩ := ih (fun x hx => hl x (List.mem_cons_of_mem _ hx))
      have hc := between_cases hp (hl r (by simp))
      simp only [countIf_cons]
      rcases hc with ⟨g1, g2⟩ | ⟨c, g1, g2, g3⟩
      · simp only [g1, g2]; simp; exact ⟨h1, h2, h3, h4⟩
      · simp only [g1]
        rcases g3 with ⟨g3, g4⟩ | ⟨g3, g4⟩ <;> rw [g3] at g4 ⊢ <;> simp at g4 <;> cases c <;>
          simp [hp, Ne.symm hp] <;> refine ⟨?_, ?_, ?_, ?_⟩ <;> linarith
  obtain ⟨h1, h2, h3, h4⟩ := key
  have htot := (C38_totals p1 p2 hp l hl).2.1
  simp only [matchupStats] at htot ⊢
  simp only [colourWins]
  refine ⟨by linarith, by linarith, by linarith, by linarith, by linarith⟩

/-- C38: so, with a jigo, the claim that the breakdown adds up is false: here black played by each player once, one win and
one jigo; player one's score is 1.5, but the breakdown gives 1.5 as black and 0.5 as white. -/
theorem C38_jigo_witness :
    let win : Res := ⟨some .b, false, false, "B+R".toList, none⟩
    let jigo : Res := ⟨none, true, false, "0".toList, none⟩
    let a := "a".toList; let b := "b".toList
    let l := [GameResult.setPlayers win a b, GameResult.setPlayers jigo b a]
    (∀ r ∈ l, Between a b r) ∧ (matchupStats l a b).wins1 = 3/2 ∧
    ∃ w, (colourBreakdown l a b).wins = some w ∧ w.wins1b = 3/2 ∧ w.wins1w = 1/2 := by
  refine ⟨?_, by decide +kernel, ?_⟩
  · intro r hr
    simp only [List.mem_cons, List.not_mem_nil, or_false] at hr
    rcases hr with rfl | rfl
    · exact ⟨rfl, rfl, by decide, Or.inl ⟨rfl, rfl⟩⟩
    · exact ⟨rfl, rfl, by decide, Or.inr ⟨rfl, rfl⟩⟩
  · refine ⟨_, rfl, by decide +kernel, by decide +kernel⟩

/-- C38: average times: over the results whose time is known; None if there are none. -/
theorem C38_average (l : List GameResult) (p : Str) (ts : List CpuTime) (h : l.map (fun r => r.cpuTimes.lookup p) = ts.map some) :
    ∃ a, averageTime l p = .ok a ∧ (a = none ↔ ts.filterMap CpuTime.known = []) ∧
      ∀ q, a = some q → q * (ts.filterMap CpuTime.known).length = (ts.filterMap CpuTime.known).sum := by
  have hm : l.mapM (fun r => r.cpuTimes.lookup p) = some ts := by
    induction l generalizing ts with
    | nil => cases ts with
      | nil => rfl
      | cons _ _ => simp at h
    | cons r l ih => cases ts with
      | nil => simp at h
      | cons t ts =>
        simp only [List.map_cons, List.cons.injEq] at h
        rw [List.mapM_cons, h.1, ih ts h.2]; rfl
  unfold averageTime
  rw [hm]
  refine ⟨_, rfl, ?_, ?_⟩
  · split <;> simp_all
  · intro q hq
    split at hq
    · simp at hq
    · rename_i hne
      simp only [Option.some.injEq] at hq
      rw [← hq]
      have : ((ts.filterMap CpuTime.known).length : Rat) ≠ 0 := by
        intro hc
        apply hne
        apply List.eq_nil_of_length_eq_zero
        exact_mod_cast hc
      exact div_mul_cancel₀ _ this

end Gomill.Tourn
