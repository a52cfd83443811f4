import Verif.Spec.Go
/- Facts about the specification `Verif.Spec.Go`. -/
namespace Gomill.Go

theorem Adj.symm {p q : Pt} (h : Adj p q) : Adj q p := by
  unfold Adj at *; omega

theorem Adj.ne {p q : Pt} (h : Adj p q) : p ≠ q := by
  rintro rfl; unfold Adj at h; omega

variable {n : Nat} {pos pos' : Position} {p q r : Pt}

theorem Conn.content (h : Conn n pos p q) : pos q = pos p := by
  cases h with
  | refl => rfl
  | step _ _ _ h => exact h

theorem Conn.onBoard (h : Conn n pos p q) (hp : OnBoard n p) : OnBoard n q := by
  cases h with
  | refl => exact hp
  | step _ _ h _ => exact h

theorem Conn.trans (h1 : Conn n pos p q) (h2 : Conn n pos q r) : Conn n pos p r := by
  induction h2 with
  | refl => exact h1
  | step _ ha hb hc ih => exact .step ih ha hb (hc.trans h1.content)

theorem Conn.one (ha : Adj p q) (hb : OnBoard n q) (hc : pos q = pos p) : Conn n pos p q :=
  .step .refl ha hb hc

theorem Conn.symm (h : Conn n pos p q) (hp : OnBoard n p) : Conn n pos q p := by
  induction h with
  | refl => exact .refl
  | step h1 ha hb hc ih =>
    exact (Conn.one ha.symm (h1.onBoard hp) (h1.content.trans hc.symm)).trans ih

theorem Borders.congr (h : Conn n pos p q) (hp : OnBoard n p) (x : Option Colour) :
    Borders n pos p x ↔ Borders n pos q x := by
  constructor
  · rintro ⟨a, b, h1, h2⟩; exact ⟨a, b, (h.symm hp).trans h1, h2⟩
  · rintro ⟨a, b, h1, h2⟩; exact ⟨a, b, h.trans h1, h2⟩

theorem HasLiberty.congr (h : Conn n pos p q) (hp : OnBoard n p) :
    HasLiberty n pos p ↔ HasLiberty n pos q := Borders.congr h hp none

/-- Connectivity only depends on the group's points having unchanged content. -/
theorem Conn.mono (h : Conn n pos p q) (hs : ∀ x, Conn n pos p x → pos' x = pos x) : Conn n pos' p q := by
  induction h with
  | refl => exact .refl
  | step h1 ha hb hc ih =>
    refine .step ih ha hb ?_
    rw [hs _ (.step h1 ha hb hc), hs _ .refl, hc]

/-- Positions which agree on the board have the same connectivity. -/
theorem Conn.congr_pos (hp : OnBoard n p) (hs : ∀ x, OnBoard n x → pos' x = pos x) :
    Conn n pos p q ↔ Conn n pos' p q := by
  constructor
  · intro h; exact h.mono (fun x hx => hs x (hx.onBoard hp))
  · intro h; exact h.mono (fun x hx => (hs x (hx.onBoard hp)).symm)

theorem Borders.congr_pos (hp : OnBoard n p) (hs : ∀ x, OnBoard n x → pos' x = pos x) (x : Option Colour) :
    Borders n pos p x ↔ Borders n pos' p x := by
  constructor
  · rintro ⟨a, b, h1, h2, h3, h4⟩
    exact ⟨a, b, (Conn.congr_pos hp hs).1 h1, h2, h3, by rw [hs b h3]; exact h4⟩
  · rintro ⟨a, b, h1, h2, h3, h4⟩
    exact ⟨a, b, (Conn.congr_pos hp hs).2 h1, h2, h3, by rw [← hs b h3]; exact h4⟩

theorem Legal.congr_pos (hs : ∀ x, OnBoard n x → pos' x = pos x) : Legal n pos ↔ Legal n pos' := by
  constructor
  · intro h p hp hne
    exact (Borders.congr_pos hp hs none).1 (h p hp (by rwa [← hs p hp]))
  · intro h p hp hne
    exact (Borders.congr_pos hp hs none).2 (h p hp (by rwa [hs p hp]))

/-- A set of stones which is a union of groups. -/
def Saturated (n : Nat) (pos : Position) (S : Pt → Prop) : Prop :=
  ∀ x y, OnBoard n x → Conn n pos x y → (S x ↔ S y)

theorem remove_of_not {S : Pt → Prop} (h : ¬ S q) : remove pos S q = pos q := by
  simp [remove, h]

theorem remove_of {S : Pt → Prop} (h : S q) : remove pos S q = none := by
  simp [remove, h]

/-- Removing whole groups leaves the liberties of other stones. -/
theorem hasLiberty_remove {S : Pt → Prop} (hS : Saturated n pos S) (hp : OnBoard n p) (hn : ¬ S p)
    (h : HasLiberty n pos p) : HasLiberty n (remove pos S) p := by
  obtain ⟨a, b, h1, h2, h3, h4⟩ := h
  refine ⟨a, b, h1.mono ?_, h2, h3, ?_⟩
  · intro x hx
    exact remove_of_not (fun hc => hn ((hS p x hp hx).2 hc))
  · unfold remove; split <;> simp [h4]

theorem dead_saturated (c : Colour) : Saturated n pos (Dead n pos c) := by
  intro x y hx hxy
  unfold Dead
  constructor
  · rintro ⟨h1, h2, h3⟩
    exact ⟨hxy.onBoard h1, hxy.content.trans h2, fun h => h3 ((HasLiberty.congr hxy h1).2 h)⟩
  · rintro ⟨h1, h2, h3⟩
    exact ⟨hx, hxy.content.symm.trans h2, fun h => h3 ((HasLiberty.congr hxy hx).1 h)⟩

theorem put_same (x : Option Colour) : put pos p x p = x := by simp [put]
theorem put_other (x : Option Colour) (h : q ≠ p) : put pos p x q = pos q := by simp [put, h]

/-- The group at `q` keeps a liberty when a stone is added at `p`, unless its group now includes or
touches `p`. -/
theorem hasLiberty_put {c : Colour} (hp : OnBoard n p) (he : pos p = none) (hq : OnBoard n q) (hne : q ≠ p)
    (hst : pos q ≠ none) (h : HasLiberty n pos q) :
    HasLiberty n (put pos p (some c)) q ∨ ∃ x, Conn n (put pos p (some c)) q x ∧ Adj x p := by
  obtain ⟨a, b, h1, h2, h3, h4⟩ := h
  have hconn : ∀ x, Conn n pos q x → Conn n (put pos p (some c)) q x := by
    intro x hx
    refine hx.mono ?_
    intro y hy
    apply put_other
    rintro rfl
    have := hy.content
    rw [he] at this; exact hst this.symm
  by_cases hb : b = p
  · subst hb
    exact Or.inr ⟨a, hconn a h1, h2⟩
  · left
    exact ⟨a, b, hconn a h1, h2, h3, by rw [put_other _ hb]; exact h4⟩

/-- After adding a stone of colour `c` at `p` to a legal position, a group of colour `c` without liberties
is the group of `p`. -/
theorem own_dead_conn {c : Colour} (hl : Legal n pos) (hp : OnBoard n p) (he : pos p = none)
    (hd : Dead n (put pos p (some c)) c q) : Conn n (put pos p (some c)) p q := by
  obtain ⟨h1, h2, h3⟩ := hd
  by_cases hqp : q = p
  · subst hqp; exact .refl
  · have hq : pos q ≠ none := by
      rw [put_other _ hqp] at h2; simp [h2]
    rcases hasLiberty_put (c := c) hp he h1 hqp hq (hl q h1 hq) with h | ⟨x, hx, ha⟩
    · exact absurd h h3
    · have hxp : Conn n (put pos p (some c)) q p :=
        .step hx ha hp (by rw [put_same, h2])
      exact hxp.symm h1

/-- After adding a stone of colour `c` at `p` to a legal position, any group of the other colour without
liberties touches `p`. -/
theorem opp_dead_adj {c : Colour} (hl : Legal n pos) (hp : OnBoard n p) (he : pos p = none)
    (hd : Dead n (put pos p (some c)) c.opponent q) :
    ∃ x, Conn n (put pos p (some c)) q x ∧ Adj x p := by
  obtain ⟨h1, h2, h3⟩ := hd
  have hqp : q ≠ p := by
    rintro rfl
    rw [put_same] at h2
    cases c <;> simp [Colour.opponent] at h2
  have hq : pos q ≠ none := by
    rw [put_other _ hqp] at h2; simp [h2]
  rcases hasLiberty_put (c := c) hp he h1 hqp hq (hl q h1 hq) with h | h
  · exact absurd h h3
  · exact h

theorem colour_cases (c : Colour) (x : Option Colour) (h : x ≠ none) : x = some c ∨ x = some c.opponent := by
  cases x with
  | none => exact absurd rfl h
  | some d => cases c <;> cases d <;> simp [Colour.opponent]

/-- The rules of go preserve legality. -/
theorem rulesPlay_legal {c : Colour} (hl : Legal n pos) (hp : OnBoard n p) (he : pos p = none) :
    Legal n (rulesPlay n pos p c) := by
  intro q hq hst
  unfold rulesPlay at *
  simp only at *
  split at hst
  · -- opponent stones captured
    rename_i hex
    simp only [hex, if_true]
    have hnd : ¬ Dead n (put pos p (some c)) c.opponent q := fun h => hst (remove_of h)
    rw [remove_of_not hnd] at hst
    by_cases hlib : HasLiberty n (put pos p (some c)) q
    · exact hasLiberty_remove (dead_saturated _) hq hnd hlib
    · -- own group without liberties: it is the group of p, and gains one
      have hown : Dead n (put pos p (some c)) c q := by
        refine ⟨hq, ?_, hlib⟩
        rcases colour_cases c _ hst with h | h
        · exact h
        · exact absurd ⟨hq, h, hlib⟩ hnd
      have hcp := own_dead_conn hl hp he hown
      obtain ⟨d, hd⟩ := hex
      obtain ⟨x, hx, ha⟩ := opp_dead_adj hl hp he hd
      have hdx : Dead n (put pos p (some c)) c.opponent x := (dead_saturated _ d x hd.1 hx).1 hd
      refine ⟨p, x, ?_, ha.symm, hdx.1, remove_of hdx⟩
      refine (hcp.symm hp).mono ?_
      intro y hy
      apply remove_of_not
      intro hc
      exact hnd ((dead_saturated _ q y hq hy).2 hc)
  · rename_i hex
    simp only [hex, if_false]
    have hnd : ¬ Dead n (put pos p (some c)) c q := fun h => hst (remove_of h)
    rw [remove_of_not hnd] at hst
    have hlib : HasLiberty n (put pos p (some c)) q := by
      apply Classical.byContradiction
      intro hlib
      rcases colour_cases c _ hst with h | h
      · exact hnd ⟨hq, h, hlib⟩
      · exact hex ⟨q, hq, h, hlib⟩
    exact hasLiberty_remove (dead_saturated _) hq hnd hlib

/-- Removing every group without liberties gives a legal position. -/
theorem remove_all_dead_legal :
    Legal n (remove pos (fun q => OnBoard n q ∧ pos q ≠ none ∧ ¬ HasLiberty n pos q)) := by
  intro q hq hst
  have hnd : ¬ (OnBoard n q ∧ pos q ≠ none ∧ ¬ HasLiberty n pos q) := fun h => hst (remove_of (S := fun q => OnBoard n q ∧ pos q ≠ none ∧ ¬ HasLiberty n pos q) h)
  rw [remove_of_not hnd] at hst
  have hlib : HasLiberty n pos q := by
    apply Classical.byContradiction
    intro hlib; exact hnd ⟨hq, hst, hlib⟩
  refine hasLiberty_remove ?_ hq hnd hlib
  intro x y hx hxy
  constructor
  · rintro ⟨h1, h2, h3⟩
    exact ⟨hxy.onBoard h1, by rwa [hxy.content], fun h => h3 ((HasLiberty.congr hxy h1).2 h)⟩
  · rintro ⟨h1, h2, h3⟩
    exact ⟨hx, by rwa [← hxy.content], fun h => h3 ((HasLiberty.congr hxy hx).1 h)⟩

/-- The board is connected: a non-empty set of points closed under adjacency is everything. -/
theorem grid_closed {S : Pt → Prop} (hcl : ∀ x y, OnBoard n x → S x → Adj x y → OnBoard n y → S y)
    (hp : OnBoard n p) (hS : S p) : ∀ q, OnBoard n q → S q := by
  -- first rows
  have up : ∀ (k : Nat) (x : Pt), OnBoard n x → S x → OnBoard n (x.1 + k, x.2) → S (x.1 + k, x.2) := by
    intro k
    induction k with
    | zero => intro x _ h _; simpa using h
    | succ k ih =>
      intro x hx h hy
      have hz : OnBoard n (x.1 + k, x.2) := by unfold OnBoard at *; simp only at *; omega
      exact hcl _ _ hz (ih x hx h hz) (by unfold Adj; simp; omega) hy
  have down : ∀ (k : Nat) (x : Pt), OnBoard n x → S x → OnBoard n (x.1 - k, x.2) → S (x.1 - k, x.2) := by
    intro k
    induction k with
    | zero => intro x _ h _; simpa using h
    | succ k ih =>
      intro x hx h hy
      have hz : OnBoard n (x.1 - k, x.2) := by unfold OnBoard at *; simp only at *; omega
      exact hcl _ _ hz (ih x hx h hz) (by unfold Adj; simp; omega) hy
  have right : ∀ (k : Nat) (x : Pt), OnBoard n x → S x → OnBoard n (x.1, x.2 + k) → S (x.1, x.2 + k) := by
    intro k
    induction k with
    | zero => intro x _ h _; simpa using h
    | succ k ih =>
      intro x hx h hy
      have hz : OnBoard n (x.1, x.2 + k) := by unfold OnBoard at *; simp only at *; omega
      exact hcl _ _ hz (ih x hx h hz) (by unfold Adj; simp; omega) hy
  have left : ∀ (k : Nat) (x : Pt), OnBoard n x → S x → OnBoard n (x.1, x.2 - k) → S (x.1, x.2 - k) := by
    intro k
    induction k with
    | zero => intro x _ h _; simpa using h
    | succ k ih =>
      intro x hx h hy
      have hz : OnBoard n (x.1, x.2 - k) := by unfold OnBoard at *; simp only at *; omega
      exact hcl _ _ hz (ih x hx h hz) (by unfold Adj; simp; omega) hy
  intro q hq
  have hmid : OnBoard n (q.1, p.2) := by unfold OnBoard at *; simp only at *; omega
  have h1 : S (q.1, p.2) := by
    by_cases h : p.1 ≤ q.1
    · have := up (q.1 - p.1).toNat p hp hS
      rw [show p.1 + ((q.1 - p.1).toNat : Int) = q.1 by omega] at this
      exact this hmid
    · have := down (p.1 - q.1).toNat p hp hS
      rw [show p.1 - ((p.1 - q.1).toNat : Int) = q.1 by omega] at this
      exact this hmid
  by_cases h : p.2 ≤ q.2
  · have := right (q.2 - p.2).toNat (q.1, p.2) hmid h1
    simp only at this
    rw [show p.2 + ((q.2 - p.2).toNat : Int) = q.2 by omega] at this
    exact this hq
  · have := left (p.2 - q.2).toNat (q.1, p.2) hmid h1
    simp only at this
    rw [show p.2 - ((p.2 - q.2).toNat : Int) = q.2 by omega] at this
    exact this hq

/-- If all the stones are of one colour and some point is empty, every stone has a liberty. -/
theorem one_colour_liberty {c : Colour} (hc : ∀ q, OnBoard n q → pos q ≠ some c.opponent)
    {p e : Pt} (hp : OnBoard n p) (he : OnBoard n e) (hpos : pos e = none) : pos p = some c → HasLiberty n pos p := by
  intro hpc
  apply Classical.byContradiction
  intro hno
  have : ∀ q, OnBoard n q → Conn n pos p q := by
    apply grid_closed (S := Conn n pos p) ?_ hp Conn.refl
    intro x y hx hcx hxy hy
    have hyc : pos y = some c := by
      cases hy' : pos y with
      | none => exact absurd ⟨x, y, hcx, hxy, hy, hy'⟩ hno
      | some d =>
        have h1 := hc y hy
        rw [hy'] at h1
        cases c <;> cases d <;> simp_all [Colour.opponent]
    exact Conn.step hcx hxy hy (by rw [hyc, hpc])
  have := (this e he).content
  rw [hpos, hpc] at this
  simp at this

end Gomill.Go
