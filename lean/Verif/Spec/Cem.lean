/-
What a cross-entropy tuner should do, independently of how the program does it.
-/
namespace Gomill.CemSpec

/-- The average. -/
def mean (v : List Rat) : Rat := v.sum / v.length

/-- The (population) variance: the average squared distance from the mean. -/
def variance (v : List Rat) : Rat := mean (v.map (fun x => (x - mean v) * (x - mean v)))

/-- Some candidates (by number) are the best `k`: there are `k` of them, and each candidate which isn't one of them has fewer wins than all of
them, or has as many wins as some of them, and a lower number than those. -/
structure Best (wins : List Rat) (k : Nat) (elite : List Nat) : Prop where
  count : elite.length = k
  nodup : elite.Nodup
  valid : ∀ a ∈ elite, a < wins.length
  best : ∀ a ∈ elite, ∀ b, b < wins.length → b ∉ elite → ∀ wa wb, wins[a]? = some wa → wins[b]? = some wb → wb < wa ∨ (wb = wa ∧ b < a)

/-- Half-up rounding to an integer, but at least one. -/
structure Rounded (q : Rat) (k : Nat) : Prop where
  atLeast : 1 ≤ k
  near : (q < 1 / 2 ∧ k = 1) ∨ ((k : Rat) - 1 / 2 ≤ q ∧ q < (k : Rat) + 1 / 2)

/-- The name of a game: generation, candidate and round, as in 'g0#1r3'. -/
def gameName (g i r : Nat) : List Char :=
  'g' :: (Nat.toDigits 10 g ++ '#' :: (Nat.toDigits 10 i ++ 'r' :: Nat.toDigits 10 r))

/-- The name of a candidate: 'g0#1'. -/
def candidateName (g i : Nat) : List Char := 'g' :: (Nat.toDigits 10 g ++ '#' :: Nat.toDigits 10 i)

/-- The total score, in some games (each given by name and the candidate's score), of a candidate. -/
def points (games : List (List Char × Rat)) (g i : Nat) : Rat :=
  ((games.filter (fun p => (candidateName g i ++ ['r']).isPrefixOf p.1)).map (·.2)).sum

/-- What a game counts for the candidate: `won` says whether it won; `none` if nobody won. -/
def score (won : Option Bool) : Rat :=
  match won with
  | some true => 1
  | some false => 0
  | none => 1 / 2

end Gomill.CemSpec
