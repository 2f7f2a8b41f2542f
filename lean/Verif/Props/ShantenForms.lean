import Verif.Props.ShantenMissing
import Mathlib.Data.List.Perm.Subperm
/-!
How many tiles a hand lacks to seven pairs and to thirteen orphans, and the value of `solve`.
-/
namespace MJ
open Spec Spec.Lack Lack

namespace Lack

/-- how many of the kinds in `L` are held at least `n` times -/
def held (L : List Nat) (n : Nat) (h : Nat → Nat) : Nat := L.countP (fun j => decide (n ≤ h j))

theorem pair_sum (h : Nat → Nat) (Q : List Nat) :
    (Q.map (fun q => 2 - h q)).sum + held Q 1 h + held Q 2 h = 2 * Q.length := by
  induction Q with
  | nil => rfl
  | cons a Q ih =>
    unfold held at *
    simp only [List.map_cons, List.sum_cons, List.countP_cons, List.length_cons, decide_eq_true_eq]
    split <;> split <;> omega

theorem held_le (h : Nat → Nat) (n : Nat) {Q : List Nat} (hn : Q.Nodup) (hq : ∀ q ∈ Q, q < 34) :
    held Q n h ≤ held (List.range 34) n h :=
  List.Subperm.countP_le _ (List.subperm_of_subset hn (fun q hm => List.mem_range.2 (hq q hm)))

theorem held_length (L : List Nat) (n : Nat) (h : Nat → Nat) : held L n h ≤ L.length := List.countP_le_length

theorem held_append (L M : List Nat) (n : Nat) (h : Nat → Nat) : held (L ++ M) n h = held L n h + held M n h :=
  List.countP_append

theorem held_all {L : List Nat} {n : Nat} {h : Nat → Nat} (ha : ∀ j ∈ L, n ≤ h j) : held L n h = L.length :=
  List.countP_eq_length.2 (fun j hj => decide_eq_true (ha j hj))

theorem held_none {L : List Nat} {n : Nat} {h : Nat → Nat} (ha : ∀ j ∈ L, h j < n) : held L n h = 0 :=
  List.countP_eq_zero.2 (fun j hj => by have := ha j hj; simp; omega)

theorem held_filter (L : List Nat) (n : Nat) (h : Nat → Nat) :
    held L n h = (L.filter (fun j => decide (n ≤ h j))).length := List.countP_eq_length_filter

end Lack

/-- C161: the number of tiles that lack to seven pairs: one for each pair that is missing, and one more for each kind
that is missing to seven different ones. -/
theorem C161_pairs {h : Nat → Nat} (hp : held (List.range 34) 2 h ≤ 7) :
    Least (PairsLack h) (7 - held (List.range 34) 2 h + (7 - held (List.range 34) 1 h)) := by
  constructor
  · let X := (List.range 34).filter (fun j => decide (2 ≤ h j))
    let R := (List.range 34).filter (fun j => !decide (2 ≤ h j))
    let Y := R.filter (fun j => decide (1 ≤ h j))
    let Z := R.filter (fun j => !decide (1 ≤ h j))
    have hx : X.length = held (List.range 34) 2 h := (held_filter _ _ _).symm
    have pR : (X ++ R).Perm (List.range 34) := List.filter_append_perm _ _
    have pY : (Y ++ Z).Perm R := List.filter_append_perm _ _
    have pA : (X ++ (Y ++ Z)).Perm (List.range 34) := ((List.Perm.refl X).append pY).trans pR
    have x2 : ∀ j ∈ X, 2 ≤ h j := fun j hj => by simpa using (List.mem_filter.1 hj).2
    have y2 : ∀ j ∈ Y, h j < 2 := fun j hj => by simpa using (List.mem_filter.1 (List.mem_filter.1 hj).1).2
    have y1 : ∀ j ∈ Y, 1 ≤ h j := fun j hj => by simpa using (List.mem_filter.1 hj).2
    have z1 : ∀ j ∈ Z, h j < 1 := fun j hj => by simpa using (List.mem_filter.1 hj).2
    have len : X.length + (Y.length + Z.length) = 34 := by
      have := pA.length_eq
      simpa using this
    have k1 : X.length + Y.length = held (List.range 34) 1 h := by
      have e : held (X ++ (Y ++ Z)) 1 h = held (List.range 34) 1 h := pA.countP_eq _
      rw [held_append, held_append, held_all (fun j hj => by have := x2 j hj; omega), held_all y1, held_none z1] at e
      omega
    let Q := X ++ (Y.take (7 - X.length) ++ Z.take (7 - X.length - Y.length))
    have sub : Q.Sublist (X ++ (Y ++ Z)) :=
      (List.Sublist.refl X).append ((List.take_sublist _ _).append (List.take_sublist _ _))
    have nd : Q.Nodup := sub.nodup (pA.nodup_iff.2 List.nodup_range)
    have mem : ∀ q ∈ Q, q < 34 := fun q hq => List.mem_range.1 (pA.mem_iff.1 (sub.mem hq))
    have lq : Q.length = 7 := by
      simp only [Q, List.length_append, List.length_take]
      omega
    have q2 : held Q 2 h = X.length := by
      rw [held_append, held_append, held_all x2, held_none (fun j hj => y2 j (List.mem_of_mem_take hj)),
        held_none (fun j hj => by have := z1 j (List.mem_of_mem_take hj); omega)]
      omega
    have q1 : held Q 1 h = X.length + min (7 - X.length) Y.length := by
      rw [held_append, held_append, held_all (fun j hj => by have := x2 j hj; omega),
        held_all (fun j hj => y1 j (List.mem_of_mem_take hj)), held_none (fun j hj => z1 j (List.mem_of_mem_take hj)),
        List.length_take]
      omega
    refine ⟨Q, nd, lq, mem, ?_⟩
    have := pair_sum h Q
    rw [q1, q2, lq] at this
    omega
  · rintro m ⟨Q, nd, lq, mem, rfl⟩
    have := pair_sum h Q
    have h1 := held_le h 1 nd mem
    have h2 := held_le h 2 nd mem
    have h3 := held_length Q 1 h
    omega

theorem Lack.orphan_sum (h : Nat → Nat) {x : Nat} {L : List Nat} (hx : x ∈ L) (hn : L.Nodup) :
    (L.map (fun q => (if q = x then 2 else 1) - h q)).sum + held L 1 h + (if 2 ≤ h x then 1 else 0) = L.length + 1 := by
  have other : ∀ {L : List Nat}, x ∉ L →
      (L.map (fun q => (if q = x then 2 else 1) - h q)).sum + held L 1 h = L.length := by
    intro L
    induction L with
    | nil => intro _; rfl
    | cons a L ih =>
      intro hm
      have h1 : ¬ a = x := fun e => hm (by simp [e])
      have ih := ih (fun e => hm (List.mem_cons_of_mem _ e))
      unfold held at *
      simp only [List.map_cons, List.sum_cons, List.countP_cons, List.length_cons, decide_eq_true_eq, if_neg h1]
      split <;> omega
  induction L with
  | nil => cases hx
  | cons a L ih =>
    obtain ⟨n1, n2⟩ := List.nodup_cons.1 hn
    by_cases e : a = x
    · subst e
      have := other n1
      unfold held at *
      simp only [List.map_cons, List.sum_cons, List.countP_cons, List.length_cons, decide_eq_true_eq, if_pos]
      split <;> split <;> omega
    · have := ih (by simpa [Ne.symm e] using hx) n2
      unfold held at *
      simp only [List.map_cons, List.sum_cons, List.countP_cons, List.length_cons, decide_eq_true_eq, if_neg e]
      split <;> omega

/-- C161: the number of tiles that lack to thirteen orphans: one for each terminal and honour that is missing, and one
more if none of them is held twice. -/
theorem C161_orphans (h : Nat → Nat) :
    Least (OrphansLack h) (13 - held ends 1 h + if held ends 2 h = 0 then 1 else 0) := by
  have l13 : ends.length = 13 := by decide
  have nd : ends.Nodup := by decide
  constructor
  · by_cases hz : held ends 2 h = 0
    · refine ⟨0, by decide, ?_⟩
      have := orphan_sum h (x := 0) (L := ends) (by decide) nd
      have hno : ¬ 2 ≤ h 0 := by
        have := List.countP_eq_zero.1 hz 0 (by decide)
        simpa using this
      have := held_length ends 1 h
      rw [if_neg hno] at *
      rw [if_pos hz]
      omega
    · obtain ⟨x, hx, hx'⟩ := List.countP_pos_iff.1 (Nat.pos_of_ne_zero hz)
      have hx' : 2 ≤ h x := by simpa using hx'
      refine ⟨x, hx, ?_⟩
      have := orphan_sum h hx nd
      have := held_length ends 1 h
      rw [if_pos hx'] at *
      rw [if_neg hz]
      omega
  · rintro m ⟨x, hx, rfl⟩
    have h1 := orphan_sum h hx nd
    have h2 := held_length ends 1 h
    by_cases hx' : 2 ≤ h x
    · have : held ends 2 h ≠ 0 := Nat.ne_of_gt (List.countP_pos_iff.2 ⟨x, hx, by simpa using hx'⟩)
      rw [if_pos hx'] at h1
      rw [if_neg this]
      omega
    · rw [if_neg hx'] at h1
      split <;> omega

theorem Lack.kindsHeld_held {h : List Int} (hl : RedHand h) (L : List Nat) (n : Nat) :
    kindsHeld L n h = held L n (kinds h) := by
  unfold kindsHeld held kinds
  apply List.countP_congr
  intro j _
  have := (hl.range j).1
  simp only [decide_eq_true_eq]
  omega

theorem Lack.orphans_ends : orphans = ends := by decide

theorem Lack.least_or {p q : Nat → Prop} {a b : Nat} (hp : Least p a) (hq : Least q b) :
    Least (fun n => p n ∨ q n) (min a b) := by
  constructor
  · rcases Nat.le_total a b with e | e
    · exact .inl (by rw [Nat.min_eq_left e]; exact hp.1)
    · exact .inr (by rw [Nat.min_eq_right e]; exact hq.1)
  · intro m hm
    rcases hm with e | e
    · have := hp.2 m e; omega
    · have := hq.2 m e; omega

theorem Lack.pairs_total (h : Nat → Nat) (L : List Nat) : 2 * held L 2 h ≤ (L.map h).sum := by
  induction L with
  | nil => exact Nat.le_refl _
  | cons a L ih =>
    unfold held at *
    simp only [List.map_cons, List.sum_cons, List.countP_cons, decide_eq_true_eq]
    split <;> omega

/-- the value of `solve` in numbers of tiles that lack to the three forms, for hands on which the formulas for
thirteen orphans and for normal hands are right -/
theorem Lack.solve_lacks {h : List Int} (hl : LegalHand h) (hs : h.sum = 13 ∨ h.sum = 14) (hp : NoPattern h)
    (h2 : ∀ j ∈ ends, at37 h j ≤ 2) (h1 : ∃ j ∈ ends, 1 ≤ at37 h j) {fuel : Nat} (hf : depth h 0 < fuel)
    {a b c : Nat} (ha : Fewest 4 (kinds h) a) (hb : Least (PairsLack (kinds h)) b)
    (hc : Least (OrphansLack (kinds h)) c) :
    ((Solver.init h).solve fuel).map (·.1) =
      some ((min (min (a : Int) (b - (7 - held (List.range 34) 1 (kinds h) : Nat))) c) - 1) := by
  have hv := (C160_value_partial (k := 4) hl (Nat.le_refl 4) (by omega) ha).2 hp
  have ht := total_kinds hl
  have hp7 : held (List.range 34) 2 (kinds h) ≤ 7 := by
    have := pairs_total (kinds h) (List.range 34)
    unfold total at ht
    omega
  have eb : b = 7 - held (List.range 34) 2 (kinds h) + (7 - held (List.range 34) 1 (kinds h)) :=
    Nat.le_antisymm (hb.2 _ (C161_pairs hp7).1) ((C161_pairs hp7).2 _ hb.1)
  have ec : c = 13 - held ends 1 (kinds h) + if held ends 2 (kinds h) = 0 then 1 else 0 :=
    Nat.le_antisymm (hc.2 _ (C161_orphans _).1) ((C161_orphans _).2 _ hc.1)
  rw [C92_solve_value hl.toRedHand (hl.noRed 34 (by omega)) (by rw [orphans_ends]; exact h2) (by rw [orphans_ends]; exact h1) hf,
    hv, orphans_ends, show (2 : Int) = ((2 : Nat) : Int) from rfl, show (1 : Int) = ((1 : Nat) : Int) from rfl,
    kindsHeld_held hl.toRedHand, kindsHeld_held hl.toRedHand, kindsHeld_held hl.toRedHand, eb, ec]
  have h13 : held ends 1 (kinds h) ≤ 13 := held_length ends 1 _
  clear ht eb ec ha hb hc hv h1 h2 hp hl hf hs
  generalize held ends 2 (kinds h) = p
  generalize held ends 1 (kinds h) = q at *
  generalize held (List.range 34) 2 (kinds h) = r at *
  generalize held (List.range 34) 1 (kinds h) = t
  congr 1
  split <;> omega

/-- C161: a closed hand with tiles of at least seven kinds gets as its value one less than the number of tiles that
lack to the nearest of the three forms, provided that some terminal or honour is held, none of them three times, and no
kind three times beside two of each of the next two. -/
theorem C161_solve_partial {h : List Int} (hl : LegalHand h) (hs : h.sum = 13 ∨ h.sum = 14) (hp : NoPattern h)
    (h2 : ∀ j ∈ ends, at37 h j ≤ 2) (h1 : ∃ j ∈ ends, 1 ≤ at37 h j)
    (h7 : 7 ≤ (List.range 34).countP (fun j => decide (1 ≤ at37 h j))) {fuel : Nat} (hf : depth h 0 < fuel)
    {n : Nat} (hn : Least (FormLacks (kinds h)) n) :
    ((Solver.init h).solve fuel).map (·.1) = some ((n : Int) - 1) := by
  obtain ⟨a, ha⟩ := fewest_exists 4 (kinds h)
  have ht := total_kinds hl
  have hb := C161_pairs (h := kinds h) (by
    have := pairs_total (kinds h) (List.range 34)
    unfold total at ht
    omega)
  have hc := C161_orphans (kinds h)
  have h7' : 7 ≤ held (List.range 34) 1 (kinds h) := by
    rw [← kindsHeld_held hl.toRedHand]
    exact h7
  have e := least_or (p := Lacks 4 (kinds h)) ha (least_or hb hc)
  have en : n = _ := Nat.le_antisymm (hn.2 _ e.1) (e.2 _ hn.1)
  rw [solve_lacks hl hs hp h2 h1 hf ha hb hc, en]
  generalize 13 - held ends 1 (kinds h) + (if held ends 2 (kinds h) = 0 then 1 else 0) = c
  generalize held (List.range 34) 2 (kinds h) = r
  generalize held (List.range 34) 1 (kinds h) = t at *
  congr 1
  omega

/-- C161 fails if there are fewer than seven kinds: five pairs and three of a kind get the value 0, but two tiles lack
to seven pairs and more to any other form. -/
theorem C161_solve_violated : ∃ h, LegalHand h ∧ h.sum = 13 ∧ ((Solver.init h).solve (depth h 0 + 1)).map (·.1) = some 0 ∧
    Least (FormLacks (kinds h)) 2 := by
  let h := handOf [2, 0, 0, 2, 0, 0, 2, 0, 0] [2, 0, 0, 2, 0, 0, 3, 0, 0] [0, 0, 0, 0, 0, 0, 0, 0, 0] [0, 0, 0, 0, 0, 0, 0]
  have hl : LegalHand h := legalHand_of (by decide)
  have hv : normalValue h = 2 := by decide +kernel
  have hp : NoPattern h := by unfold NoPattern; decide
  obtain ⟨a, ha⟩ := fewest_exists 4 (kinds h)
  have ea := (C160_value_partial (k := 4) hl (Nat.le_refl 4) (.inl (by decide)) ha).2 hp
  have hb : Least (PairsLack (kinds h)) 2 := C161_pairs (h := kinds h) (by decide)
  have hc : Least (OrphansLack (kinds h)) 11 := C161_orphans (kinds h)
  have e3 : a = 3 := by omega
  subst e3
  refine ⟨h, hl, by decide, ?_, least_or (p := Lacks 4 (kinds h)) ha (least_or hb hc)⟩
  rw [solve_lacks hl (.inl (by decide)) hp (by decide) ⟨0, by decide, by decide⟩ (Nat.lt_succ_self _) ha hb hc]
  decide

/-- non-vacuity: six pairs and a single tile lack one tile to seven pairs -/
example : ∃ h, LegalHand h ∧ h.sum = 13 ∧ NoPattern h ∧ (∀ j ∈ ends, at37 h j ≤ 2) ∧ (∃ j ∈ ends, 1 ≤ at37 h j) ∧
    7 ≤ (List.range 34).countP (fun j => decide (1 ≤ at37 h j)) ∧ PairsLack (kinds h) 1 := by
  refine ⟨handOf [2, 0, 0, 2, 0, 0, 2, 0, 0] [2, 0, 0, 2, 0, 0, 2, 0, 0] [1, 0, 0, 0, 0, 0, 0, 0, 0] [0, 0, 0, 0, 0, 0, 0],
    legalHand_of (by decide), by decide, by unfold NoPattern; decide, by decide, ⟨0, by decide, by decide⟩, by decide,
    [0, 3, 6, 9, 12, 15, 18], by decide, rfl, by decide, by decide⟩

end MJ
