import Verif.Proofs.ShantenStep
import Verif.Props.ShantenBounds
/-!
How far the value of the shanten search is from the smallest distance over all decompositions: at most one, and not at
all without three tiles of a kind beside two of each of the next two.
-/
namespace MJ
open Spec

/-! ### Honours -/

theorem cost_honour {m t p : Int} {sA tA gA sR tR : Nat} (ht : 0 ≤ t) (hp : 0 ≤ p) (hx : (3 * sA + 2 * tA + gA : Int) ≤ 4) :
    cost (m + (if (3 : Int) ≤ 3 * sA + 2 * tA + gA then 1 else 0) + sR) t
      (p + (if (3 * sA + 2 * tA + gA : Int) = 2 then 1 else 0) + tR) ≤
    cost (m + (sA + sR : Nat)) t (p + (tA + tR : Nat)) := by
  have hc : (sA = 0 ∧ tA = 0) ∨ (sA = 1 ∧ tA = 0) ∨ (sA = 0 ∧ tA = 1) ∨ (sA = 0 ∧ tA = 2) := by omega
  unfold cost
  rcases hc with ⟨rfl, rfl⟩ | ⟨rfl, rfl⟩ | ⟨rfl, rfl⟩ | ⟨rfl, rfl⟩
  · split <;> split <;> omega
  · rw [if_pos (by omega), if_neg (by omega)]; omega
  · split <;> split <;> omega
  · rw [if_pos (by omega), if_neg (by omega)]; omega

/-- the honour tiles of a split, counted the way the solver counts them, do not make the distance larger -/
theorem strip_cost (L : List Nat) (h : List Int) (hL : ∀ j ∈ L, 27 ≤ j) (hnd : L.Nodup) (h4 : ∀ j, at37 h j ≤ 4) :
    ∀ (m p : Int) (D : List Block), 0 ≤ p → (∀ b ∈ D, b.valid = true) → (∀ j ∈ L, at37 h j = used D j) →
    ∃ D' : List Block, (∀ b ∈ D', b ∈ D ∧ b.start ∉ L) ∧ (∀ j, j < 27 → used D' j = used D j) ∧
      cost (m + honours (fun x => decide (3 ≤ x)) h L + sets D') (taatsus D')
        (p + honours (fun x => x == 2) h L + toitsus D') ≤ cost (m + sets D) (taatsus D) (p + toitsus D) := by
  induction L with
  | nil =>
    intro m p D _ _ _
    exact ⟨D, fun b hb => ⟨hb, by simp⟩, fun _ _ => rfl, by simp [honours]⟩
  | cons j L ih =>
    intro m p D hp hv hD
    have hj : 27 ≤ j := hL j (by simp)
    let A := D.filter (fun b => decide (b.start = j))
    let R := D.filter (fun b => !decide (b.start = j))
    have hperm : (A ++ R).Perm D := List.filter_append_perm _ _
    have hA : ∀ b ∈ A, b ∈ D ∧ b.start = j := by
      intro b hb
      simpa [A] using hb
    have hR : ∀ b ∈ R, b ∈ D ∧ b.start ≠ j := by
      intro b hb
      simpa [R] using hb
    obtain ⟨u1, u2⟩ := honour_used (fun b hb => hv b (hA b hb).1) hj (fun b hb => (hA b hb).2)
    have u3 := used_zero_of_start (B := R) (fun b hb => hv b (hR b hb).1) hj (fun b hb => (hR b hb).2)
    have hused : ∀ i, used D i = used A i + used R i := fun i => by rw [← used_perm hperm, used_append]
    have hAz : ∀ i, i ≠ j → used A i = 0 := by
      intro i hi
      have : ∀ b ∈ A, b.uses i = 0 := by
        intro b hb
        rw [(honour_block (hv b (hA b hb).1) (by rw [(hA b hb).2]; exact hj) i).1, if_neg (by rw [(hA b hb).2]; exact hi)]
      apply Classical.byContradiction
      intro hn
      obtain ⟨b, hb, hb'⟩ := exists_of_used (B := A) (j := i) (by omega)
      have := this b hb
      omega
    have hj' := hD j (by simp)
    have hj4 := h4 j
    obtain ⟨c1, c2, c3, c4⟩ := counts_perm hperm
    obtain ⟨e1, e2, e3, e4⟩ := counts_append A R
    have e : (used D j : Int) = 3 * sets A + 2 * toitsus A + singles A := by rw [hused, u3, u1]; omega
    have hnd' := List.nodup_cons.1 hnd
    have ht' : cost (m + (if 3 ≤ at37 h j then 1 else 0) + sets R) (taatsus R)
        (p + (if at37 h j = 2 then 1 else 0) + toitsus R) ≤ cost (m + sets D) (taatsus D) (p + toitsus D) := by
      rw [← c1, ← c2, ← c3, e1, e2, e3, u2]
      rw [hj', e] at hj4 ⊢
      rw [Nat.zero_add]
      exact cost_honour (by omega) hp hj4
    obtain ⟨D', d1, d2, d3⟩ := ih (fun i hi => hL i (by simp [hi])) hnd'.2 (m + (if 3 ≤ at37 h j then 1 else 0))
      (p + (if at37 h j = 2 then 1 else 0)) R (by split <;> omega) (fun b hb => hv b (hR b hb).1)
      (fun i hi => by
        have hne : i ≠ j := fun e => hnd'.1 (e ▸ hi)
        rw [hD i (by simp [hi]), hused, hAz i hne]; omega)
    refine ⟨D', fun b hb => ?_, fun i hi => ?_, ?_⟩
    · obtain ⟨g1, g2⟩ := d1 b hb
      exact ⟨(hR b g1).1, by simp [(hR b g1).2, g2]⟩
    · rw [d2 i hi, hused, hAz i (by omega)]; omega
    · refine Int.le_trans (Int.le_of_eq ?_) (Int.le_trans d3 ht')
      congr 1
      · simp only [honours, List.countP_cons, decide_eq_true_eq]
        split <;> omega
      · simp only [honours, List.countP_cons, beq_iff_eq]
        split <;> omega

/-! ### Splits of the whole hand -/

/-- the block without its mark -/
def unmark : Block → Block
  | .single i _ => .single i false
  | b => b

theorem unmark_same (b : Block) : (∀ j, (unmark b).uses j = b.uses j) ∧ (unmark b).valid = b.valid ∧ (unmark b).isMarked = false ∧
    (unmark b).isSet = b.isSet ∧ (unmark b).isTaatsu = b.isTaatsu ∧ (unmark b).isToitsu = b.isToitsu := by
  cases b <;> exact ⟨fun _ => rfl, rfl, rfl, rfl, rfl, rfl⟩

theorem unmark_all (A : List Block) : (∀ j, used (A.map unmark) j = used A j) ∧ sets (A.map unmark) = sets A ∧
    taatsus (A.map unmark) = taatsus A ∧ toitsus (A.map unmark) = toitsus A := by
  refine ⟨fun j => ?_, ?_, ?_, ?_⟩
  · unfold used
    rw [List.map_map]
    congr 1
    exact List.map_congr_left (fun b _ => (unmark_same b).1 j)
  · unfold sets; rw [List.countP_map]; congr 1; funext b; exact (unmark_same b).2.2.2.1
  · unfold taatsus; rw [List.countP_map]; congr 1; funext b; exact (unmark_same b).2.2.2.2.1
  · unfold toitsus; rw [List.countP_map]; congr 1; funext b; exact (unmark_same b).2.2.2.2.2

/-- `f j` single tiles of every kind in `L` -/
def loners (f : Nat → Nat) (L : List Nat) : List Block := L.flatMap (fun j => List.replicate (f j) (.single j false))

theorem used_replicate (n k j : Nat) : used (List.replicate n (.single k false)) j = if j = k then n else 0 := by
  induction n with
  | zero => simp [used_nil]
  | succ n ih =>
    rw [List.replicate_succ, used_cons, ih]
    simp only [Block.uses]
    split <;> omega

theorem used_loners (f : Nat → Nat) {L : List Nat} (hn : L.Nodup) (j : Nat) : used (loners f L) j = if j ∈ L then f j else 0 := by
  induction L with
  | nil => rfl
  | cons k L ih =>
    have hn' := List.nodup_cons.1 hn
    have e : loners f (k :: L) = List.replicate (f k) (.single k false) ++ loners f L := rfl
    rw [e, used_append, used_replicate, ih hn'.2]
    by_cases hj : j = k
    · subst hj
      simp [hn'.1]
    · simp [hj]

theorem loners_mem {f : Nat → Nat} {L : List Nat} {b : Block} (h : b ∈ loners f L) : ∃ k ∈ L, b = .single k false := by
  obtain ⟨k, hk, hb⟩ := List.mem_flatMap.1 h
  exact ⟨k, hk, (List.mem_replicate.1 hb).2⟩

theorem loners_counts (f : Nat → Nat) (L : List Nat) : sets (loners f L) = 0 ∧ taatsus (loners f L) = 0 ∧ toitsus (loners f L) = 0 := by
  refine ⟨List.countP_eq_zero.2 ?_, List.countP_eq_zero.2 ?_, List.countP_eq_zero.2 ?_⟩ <;> intro b hb <;>
    obtain ⟨k, _, rfl⟩ := loners_mem hb <;> simp [Block.isSet, Block.isTaatsu, Block.isToitsu]

/-- the value is at most one above the distance of any decomposition, and not above it without the pattern -/
theorem C91_near_partial {h : List Int} (hl : LegalHand h) (hs : h.sum ≤ 14) {A : List Block} (hv : ∀ b ∈ A, b.valid = true)
    (hA : ∀ j, j < 34 → (used A j : Int) ≤ at37 h j) :
    normalValue h ≤ distance ((14 - h.sum) / 3 + sets A) (taatsus A) (toitsus A) false + 1 ∧
    (NoPattern h → normalValue h ≤ distance ((14 - h.sum) / 3 + sets A) (taatsus A) (toitsus A) false) := by
  -- the whole hand as blocks
  let f : Nat → Nat := fun j => (at37 h j - used A j).toNat
  let D := A.map unmark ++ loners f (List.range 34)
  obtain ⟨un, us, ut, up⟩ := unmark_all A
  obtain ⟨ls, lt, lp⟩ := loners_counts f (List.range 34)
  obtain ⟨as, at', ap, _⟩ := counts_append (A.map unmark) (loners f (List.range 34))
  have hDv : ∀ b ∈ D, b.valid = true ∧ b.isMarked = false := by
    intro b hb
    rcases List.mem_append.1 hb with hb | hb
    · obtain ⟨a, ha, rfl⟩ := List.mem_map.1 hb
      exact ⟨by rw [(unmark_same a).2.1]; exact hv a ha, (unmark_same a).2.2.1⟩
    · obtain ⟨k, hk, rfl⟩ := loners_mem hb
      exact ⟨by simpa [Block.valid] using hk, rfl⟩
  have hDu : ∀ j, j < 34 → at37 h j = used D j := by
    intro j hj
    have := hA j hj
    show at37 h j = ((used (A.map unmark ++ loners f (List.range 34)) j : Nat) : Int)
    rw [used_append, un, used_loners f List.nodup_range, if_pos (by simpa using hj)]
    show _ = ((used A j + (at37 h j - used A j).toNat : Nat) : Int)
    omega
  obtain ⟨D', d1, d2, d3⟩ := strip_cost honourKinds h (by decide) (by decide) (fun j => (hl.range j).2)
    ((14 - h.sum) / 3) 0 D (by omega) (fun b hb => (hDv b hb).1) (fun j hj => hDu j (by unfold honourKinds at hj; grind))
  have hDc : cost ((14 - h.sum) / 3 + sets D) (taatsus D) (0 + toitsus D) =
      distance ((14 - h.sum) / 3 + sets A) (taatsus A) (toitsus A) false := by
    rw [cost_distance]
    show distance ((14 - h.sum) / 3 + ((sets (A.map unmark ++ loners f (List.range 34)) : Nat) : Int))
      ((taatsus (A.map unmark ++ loners f (List.range 34)) : Nat) : Int)
      (0 + ((toitsus (A.map unmark ++ loners f (List.range 34)) : Nat) : Int)) false = _
    rw [as, at', ap, us, ut, up, ls, lt, lp]
    congr 1
    omega
  have hok : ∀ b ∈ D', b.ok := by
    intro b hb
    obtain ⟨g1, g2⟩ := d1 b hb
    have hv' := (hDv b g1).1
    refine ⟨hv', ?_⟩
    have : b.start < 34 := by
      cases b <;> simp only [Block.valid, decide_eq_true_eq] at hv' <;> simp only [Block.start] <;> omega
    unfold honourKinds at g2
    simp only [List.mem_cons, List.not_mem_nil, or_false, not_or] at g2
    omega
  have hS : Split 0 (Solver.init h).pos D' := by
    rw [init_pos hl.toRedHand]
    refine ⟨hl.len, hok, fun _ _ => Nat.zero_le _, fun b hb => (hDv b (d1 b hb).1).2, rfl, ⟨by simp, by simp⟩,
      fun j _ hj => ?_, fun j _ _ => (hl.range j).2⟩
    show at37 h j = _
    rw [hDu j (by omega), d2 j hj]
  have hval : val (Solver.init h).pos D' ≤ distance ((14 - h.sum) / 3 + sets A) (taatsus A) (toitsus A) false := by
    rw [← hDc]
    refine Int.le_trans (Int.le_of_eq ?_) d3
    unfold val
    rw [init_pos hl.toRedHand]
    show cost _ (0 + (taatsus D' : Int)) ((honours (fun x => x == 2) h honourKinds : Int) + toitsus D') = _
    rw [Int.zero_add, Int.zero_add]
  obtain ⟨n1, n2⟩ := near _ 0 _ D' (Nat.lt_succ_self _) (by omega) hS
  -- with 14 tiles in the suits there are no honours
  have hp : phi D' < 14 ∨ (wt D' ≤ 14 ∧ (Solver.init h).pos.p = 0) := by
    have hlo := left_over (h := h) (A := D') (fun b hb => (hok b hb).1)
    rw [← sum_legal hl] at hlo
    have hnn : ∀ x ∈ List.range 34, 0 ≤ at37 h x - used D' x := by
      intro x hx
      by_cases h27 : x < 27
      · rw [hDu x (by simpa using hx), d2 x h27]; omega
      · have : used D' x = 0 := by
          apply Classical.byContradiction
          intro hn
          obtain ⟨b, hb, hb'⟩ := exists_of_used (B := D') (j := x) (by omega)
          have := (hok b hb).uses_zero (j := x) (by omega)
          omega
        rw [this]
        have := (hl.range x).1
        omega
    have hge := sum_nonneg hnn
    rw [hlo] at hge
    have hw : (3 * sets D' + 2 * (taatsus D' + toitsus D') + singles D' : Nat) = wt D' := by unfold wt; omega
    rw [hw] at hlo hge
    have := phi_le_wt D'
    by_cases h14 : phi D' < 14
    · exact .inl h14
    · refine .inr ⟨by omega, ?_⟩
      have hz := all_zero hnn (by omega)
      rw [init_pos hl.toRedHand]
      show ((honours (fun x => x == 2) h honourKinds : Nat) : Int) = 0
      have : honours (fun x => x == 2) h honourKinds = 0 := by
        refine List.countP_eq_zero.2 (fun j hj => ?_)
        have hr := honourKinds_range j hj
        have h0 := hz j (by simp; omega)
        have : used D' j = 0 := by
          apply Classical.byContradiction
          intro hn
          obtain ⟨b, hb, hb'⟩ := exists_of_used (B := D') (j := j) (by omega)
          have := (hok b hb).uses_zero (j := j) (by omega)
          omega
        have : at37 h j = 0 := by omega
        simp [this]
      omega
  refine ⟨?_, fun hn => ?_⟩
  · exact found_le ((n2 hp).mono (by omega))
  · exact found_le ((n1 (.inr hn)).mono hval)

/-- `v` is the smallest distance of a decomposition of the hand -/
def Spec.Smallest (h : List Int) (v : Int) : Prop :=
  (∃ A : List Block, (∀ b ∈ A, b.valid = true) ∧ (∀ j, j < 34 → (used A j : Int) ≤ at37 h j) ∧
    distance ((14 - h.sum) / 3 + sets A) (taatsus A) (toitsus A) false = v) ∧
  ∀ A : List Block, (∀ b ∈ A, b.valid = true) → (∀ j, j < 34 → (used A j : Int) ≤ at37 h j) →
    v ≤ distance ((14 - h.sum) / 3 + sets A) (taatsus A) (toitsus A) false

theorem distance_unmarked (m t p : Int) (b : Bool) : distance m t p false ≤ distance m t p b := by
  unfold distance
  split <;> split <;> simp_all <;> omega

/-- the value is the smallest distance or one more -/
theorem C91_within {h : List Int} (hl : LegalHand h) (hs : h.sum ≤ 14) {v : Int} (hv : Smallest h v) :
    v ≤ normalValue h ∧ normalValue h ≤ v + 1 := by
  obtain ⟨⟨A, a1, a2, a3⟩, hmin⟩ := hv
  refine ⟨?_, by rw [← a3]; exact (C91_near_partial hl hs a1 a2).1⟩
  obtain ⟨B, b1, b2, b3⟩ := C78_decomposition hl.toRedHand (by omega)
  rw [b3]
  exact Int.le_trans (hmin B b1 b2) (distance_unmarked _ _ _ _)

/-- without three tiles of a kind beside two of each of the next two, the value is the smallest distance -/
theorem C91_smallest_partial {h : List Int} (hl : LegalHand h) (hs : h.sum ≤ 14) (hn : NoPattern h) : Smallest h (normalValue h) := by
  obtain ⟨B, b1, b2, b3⟩ := C78_decomposition hl.toRedHand (by omega)
  have hle := fun A a1 a2 => (C91_near_partial (A := A) hl hs a1 a2).2 hn
  refine ⟨⟨B, b1, b2, ?_⟩, hle⟩
  have := hle B b1 b2
  have := distance_unmarked ((14 - h.sum) / 3 + sets B) (taatsus B) (toitsus B) (decide (markeds B ≠ 0))
  omega

/-- a discard lowers the value by at most one, and never without the pattern -/
theorem C91_discard {h h' : List Int} (hl : LegalHand h) (hl' : LegalHand h') (hs : h.sum ≤ 14) (hle : ∀ j, at37 h' j ≤ at37 h j)
    (he : (14 - h'.sum) / 3 = (14 - h.sum) / 3) (hs' : h'.sum ≤ 17) :
    normalValue h ≤ normalValue h' + 1 ∧ (NoPattern h → normalValue h ≤ normalValue h') := by
  obtain ⟨B, b1, b2, b3⟩ := C78_decomposition hl'.toRedHand hs'
  have hn := C91_near_partial hl hs b1 (fun j hj => Int.le_trans (b2 j hj) (hle j))
  have := distance_unmarked ((14 - h'.sum) / 3 + sets B) (taatsus B) (toitsus B) (decide (markeds B ≠ 0))
  rw [he] at b3 this
  refine ⟨by omega, fun hp => ?_⟩
  have := hn.2 hp
  omega

/-- the hands of `C91_minimal_violated` are one too high -/
example : Smallest (handOf [3, 2, 2, 0, 0, 0, 0, 0, 0] [0, 0, 0, 0, 2, 0, 0, 3, 0] [0, 0, 0, 1, 0, 1, 0, 0, 0] [0, 0, 0, 0, 0, 0, 0]) 0 := by
  have hl : LegalHand (handOf [3, 2, 2, 0, 0, 0, 0, 0, 0] [0, 0, 0, 0, 2, 0, 0, 3, 0] [0, 0, 0, 1, 0, 1, 0, 0, 0] [0, 0, 0, 0, 0, 0, 0]) :=
    legalHand_of (by decide)
  have h1 : normalValue (handOf [3, 2, 2, 0, 0, 0, 0, 0, 0] [0, 0, 0, 0, 2, 0, 0, 3, 0] [0, 0, 0, 1, 0, 1, 0, 0, 0] [0, 0, 0, 0, 0, 0, 0]) = 1 := by
    decide +kernel
  refine ⟨⟨[.shuntsu 0, .shuntsu 0, .toitsu 13, .koutsu 16, .taatsu 21 1], by decide, by decide, by decide⟩, fun A a1 a2 => ?_⟩
  have := (C91_near_partial hl (by decide) a1 a2).1
  rw [h1] at this
  omega

/-- without the pattern: 123m 123m 55p 888p 46s and one more tile -/
example : NoPattern (handOf [2, 2, 2, 0, 0, 0, 0, 0, 1] [0, 0, 0, 0, 2, 0, 0, 3, 0] [0, 0, 0, 1, 0, 1, 0, 0, 0] [0, 0, 0, 0, 0, 0, 0]) := by
  unfold NoPattern
  decide

end MJ
