import Verif.Proofs.ShantenNear
/-!
One step of the shanten search along a split, rearranged where the search takes another block first.
-/
namespace MJ
open Spec

section
variable {q : Pos} {i : Nat}

theorem single_ok {j : Nat} (h : j < 27) : (Block.single j false).ok := ⟨by simp [Block.valid]; omega, h⟩

theorem Split.cases {B : List Block} (h : Split i q B) (hnk : Block.koutsu i ∉ B) (hnt : Block.toitsu i ∉ B) {b : Block}
    (hb : b ∈ B) (hu : 1 ≤ b.uses i) : Piece i b := by
  rcases block_cases (h.covers hb hu) (h.mark b hb) (h.ok b hb) with rfl | rfl | h'
  · exact absurd hb hnk
  · exact absurd hb hnt
  · exact h'

/-- other values for the same tiles -/
theorem val_le {A A' : List Block} (R : List Block) (hq : 0 ≤ q.t ∧ 0 ≤ q.p)
    (hc : ∀ m t p : Int, 0 ≤ t → 0 ≤ p → cost (m + sets A') (t + taatsus A') (p + toitsus A') ≤
      cost (m + sets A) (t + taatsus A) (p + toitsus A)) : val q (A' ++ R) ≤ val q (A ++ R) := by
  unfold val
  obtain ⟨a1, a2, a3, _⟩ := counts_append A R
  obtain ⟨b1, b2, b3, _⟩ := counts_append A' R
  rw [a1, a2, a3, b1, b2, b3]
  have := hc (q.m + sets R) (q.t + taatsus R) (q.p + toitsus R) (by omega) (by omega)
  have e1 : q.m + (sets A' + sets R : Nat) = q.m + sets R + sets A' := by omega
  have e2 : q.t + (taatsus A' + taatsus R : Nat) = q.t + taatsus R + taatsus A' := by omega
  have e3 : q.p + (toitsus A' + toitsus R : Nat) = q.p + toitsus R + toitsus A' := by omega
  have e4 : q.m + (sets A + sets R : Nat) = q.m + sets R + sets A := by omega
  have e5 : q.t + (taatsus A + taatsus R : Nat) = q.t + taatsus R + taatsus A := by omega
  have e6 : q.p + (toitsus A + toitsus R : Nat) = q.p + toitsus R + toitsus A := by omega
  rw [e1, e2, e3, e4, e5, e6]
  exact this

theorem phi_cons (b : Block) (B : List Block) : phi (b :: B) = phi [b] + phi B := by
  obtain ⟨c1, c2, c3, c4⟩ := counts_cons b B
  obtain ⟨d1, d2, d3, d4⟩ := counts_cons b []
  unfold phi
  rw [c1, c4, d1, d4]
  simp only [sets, singles, List.countP_nil]
  omega

theorem wt_cons (b : Block) (B : List Block) : wt (b :: B) = wt [b] + wt B := by
  obtain ⟨c1, c2, c3, c4⟩ := counts_cons b B
  obtain ⟨d1, d2, d3, d4⟩ := counts_cons b []
  unfold wt
  rw [c1, c2, c3, c4, d1, d2, d3, d4]
  simp only [sets, singles, taatsus, toitsus, List.countP_nil]
  omega

theorem phi_append (A B : List Block) : phi (A ++ B) = phi A + phi B := by
  obtain ⟨c1, c2, c3, c4⟩ := counts_append A B
  unfold phi
  rw [c1, c4]
  omega

theorem wt_append (A B : List Block) : wt (A ++ B) = wt A + wt B := by
  obtain ⟨c1, c2, c3, c4⟩ := counts_append A B
  unfold wt
  rw [c1, c2, c3, c4]
  omega

theorem wt_block (b : Block) : 1 ≤ wt [b] := by
  cases b <;> simp [wt, sets, taatsus, toitsus, singles, Block.isSet, Block.isTaatsu, Block.isToitsu, Block.isSingle]

theorem phi_le_wt (B : List Block) : phi B ≤ wt B := by unfold phi wt; omega

/-- the search goes on with a split that is not worse -/
def Advance (i : Nat) (q : Pos) (B : List Block) : Prop :=
  ∃ B0 br B', Took i q B0 br B' ∧ val q B0 ≤ val q B ∧ phi B' ≤ phi B ∧ wt B' < wt B

theorem Took.advance {B0 B B' : List Block} {br : List Block × Nat} (h : Took i q B0 br B') (hv : val q B0 ≤ val q B)
    (hp : phi B' ≤ phi B) (hw : wt B' < wt B) : Advance i q B := ⟨B0, br, B', h, hv, hp, hw⟩

theorem Advance.perm {A B : List Block} (h : Advance i q A) (e : A.Perm B) : Advance i q B := by
  obtain ⟨B0, br, B', h1, h2, h3, h4⟩ := h
  exact ⟨B0, br, B', h1, by rw [← val_perm e]; exact h2, by rw [← phi_perm e]; exact h3, by rw [← wt_perm e]; exact h4⟩

/-- a partial run or a single tile of kind `i` -/
def Loose (i : Nat) (b : Block) : Prop := b = .taatsu i 1 ∨ b = .taatsu i 2 ∨ b = .single i false

theorem Piece.loose {b : Block} (h : Piece i b) (hs : b ≠ .shuntsu i) : Loose i b := by
  rcases h with h | h
  · exact absurd h hs
  · exact h

/-- two partial runs or single tiles of kind `i` give a pair of `i` and what is left of them -/
theorem combine {y z : Block} (hy : Loose i y) (hz : Loose i z) (hi : i < 27) (hyo : y.ok) (hzo : z.ok) :
    ∃ C : List Block, (∀ b ∈ C, b.ok ∧ i ≤ b.start ∧ b.isMarked = false) ∧
      (∀ j, used (.toitsu i :: C) j = used [y, z] j) ∧
      (∀ m t p : Int, 0 ≤ t → 0 ≤ p → cost (m + sets (.toitsu i :: C)) (t + taatsus (.toitsu i :: C)) (p + toitsus (.toitsu i :: C)) ≤
        cost (m + sets [y, z]) (t + taatsus [y, z]) (p + toitsus [y, z])) ∧
      phi C ≤ phi [y, z] ∧ wt C < wt [y, z] := by
  have hy1 := hyo.1
  have hz1 := hzo.1
  rcases hy with rfl | rfl | rfl <;> rcases hz with rfl | rfl | rfl <;>
    simp only [Block.valid, decide_eq_true_eq] at hy1 hz1
  · refine ⟨[.toitsu (i + 2)], ?_, fun j => ?_, ?_, by simp [phi, sets, singles, Block.isSet, Block.isSingle],
      by simp [wt, sets, singles, taatsus, toitsus, List.countP_cons, Block.isSet, Block.isSingle, Block.isTaatsu, Block.isToitsu]⟩
    · simp only [List.mem_singleton, forall_eq]
      exact ⟨toitsu_ok (by omega), by simp only [Block.start]; omega, rfl⟩
    · simp only [used_cons, used_nil, Block.uses]
      (repeat' split) <;> omega
    · intro m t p h1 h2
      show cost (m + (0 : Nat)) (t + (0 : Nat)) (p + (2 : Nat)) ≤ cost (m + (0 : Nat)) (t + (2 : Nat)) (p + (0 : Nat))
      unfold cost
      omega
  · refine ⟨[.taatsu (i + 1) 2], ?_, fun j => ?_, ?_, by simp [phi, sets, singles, Block.isSet, Block.isSingle],
      by simp [wt, sets, singles, taatsus, toitsus, List.countP_cons, Block.isSet, Block.isSingle, Block.isTaatsu, Block.isToitsu]⟩
    · simp only [List.mem_singleton, forall_eq]
      exact ⟨⟨by simp [Block.valid]; omega, by simp only [Block.start]; omega⟩, by simp only [Block.start]; omega, rfl⟩
    · simp only [used_cons, used_nil, Block.uses]
      (repeat' split) <;> omega
    · intro m t p h1 h2
      show cost (m + (0 : Nat)) (t + (1 : Nat)) (p + (1 : Nat)) ≤ cost (m + (0 : Nat)) (t + (2 : Nat)) (p + (0 : Nat))
      unfold cost
      omega
  · refine ⟨[.single (i + 2) false], ?_, fun j => ?_, ?_, by simp [phi, sets, singles, Block.isSet, Block.isSingle],
      by simp [wt, sets, singles, taatsus, toitsus, List.countP_cons, Block.isSet, Block.isSingle, Block.isTaatsu, Block.isToitsu]⟩
    · simp only [List.mem_singleton, forall_eq]
      exact ⟨single_ok (by omega), by simp only [Block.start]; omega, rfl⟩
    · simp only [used_cons, used_nil, Block.uses]
      (repeat' split) <;> omega
    · intro m t p h1 h2
      show cost (m + (0 : Nat)) (t + (0 : Nat)) (p + (1 : Nat)) ≤ cost (m + (0 : Nat)) (t + (1 : Nat)) (p + (0 : Nat))
      unfold cost
      omega
  · refine ⟨[.taatsu (i + 1) 2], ?_, fun j => ?_, ?_, by simp [phi, sets, singles, Block.isSet, Block.isSingle],
      by simp [wt, sets, singles, taatsus, toitsus, List.countP_cons, Block.isSet, Block.isSingle, Block.isTaatsu, Block.isToitsu]⟩
    · simp only [List.mem_singleton, forall_eq]
      exact ⟨⟨by simp [Block.valid]; omega, by simp only [Block.start]; omega⟩, by simp only [Block.start]; omega, rfl⟩
    · simp only [used_cons, used_nil, Block.uses]
      (repeat' split) <;> omega
    · intro m t p h1 h2
      show cost (m + (0 : Nat)) (t + (1 : Nat)) (p + (1 : Nat)) ≤ cost (m + (0 : Nat)) (t + (2 : Nat)) (p + (0 : Nat))
      unfold cost
      omega
  · refine ⟨[.toitsu (i + 1)], ?_, fun j => ?_, ?_, by simp [phi, sets, singles, Block.isSet, Block.isSingle],
      by simp [wt, sets, singles, taatsus, toitsus, List.countP_cons, Block.isSet, Block.isSingle, Block.isTaatsu, Block.isToitsu]⟩
    · simp only [List.mem_singleton, forall_eq]
      exact ⟨toitsu_ok (by omega), by simp only [Block.start]; omega, rfl⟩
    · simp only [used_cons, used_nil, Block.uses]
      (repeat' split) <;> omega
    · intro m t p h1 h2
      show cost (m + (0 : Nat)) (t + (0 : Nat)) (p + (2 : Nat)) ≤ cost (m + (0 : Nat)) (t + (2 : Nat)) (p + (0 : Nat))
      unfold cost
      omega
  · refine ⟨[.single (i + 1) false], ?_, fun j => ?_, ?_, by simp [phi, sets, singles, Block.isSet, Block.isSingle],
      by simp [wt, sets, singles, taatsus, toitsus, List.countP_cons, Block.isSet, Block.isSingle, Block.isTaatsu, Block.isToitsu]⟩
    · simp only [List.mem_singleton, forall_eq]
      exact ⟨single_ok (by omega), by simp only [Block.start]; omega, rfl⟩
    · simp only [used_cons, used_nil, Block.uses]
      (repeat' split) <;> omega
    · intro m t p h1 h2
      show cost (m + (0 : Nat)) (t + (0 : Nat)) (p + (1 : Nat)) ≤ cost (m + (0 : Nat)) (t + (1 : Nat)) (p + (0 : Nat))
      unfold cost
      omega
  · refine ⟨[.single (i + 2) false], ?_, fun j => ?_, ?_, by simp [phi, sets, singles, Block.isSet, Block.isSingle],
      by simp [wt, sets, singles, taatsus, toitsus, List.countP_cons, Block.isSet, Block.isSingle, Block.isTaatsu, Block.isToitsu]⟩
    · simp only [List.mem_singleton, forall_eq]
      exact ⟨single_ok (by omega), by simp only [Block.start]; omega, rfl⟩
    · simp only [used_cons, used_nil, Block.uses]
      (repeat' split) <;> omega
    · intro m t p h1 h2
      show cost (m + (0 : Nat)) (t + (0 : Nat)) (p + (1 : Nat)) ≤ cost (m + (0 : Nat)) (t + (1 : Nat)) (p + (0 : Nat))
      unfold cost
      omega
  · refine ⟨[.single (i + 1) false], ?_, fun j => ?_, ?_, by simp [phi, sets, singles, Block.isSet, Block.isSingle],
      by simp [wt, sets, singles, taatsus, toitsus, List.countP_cons, Block.isSet, Block.isSingle, Block.isTaatsu, Block.isToitsu]⟩
    · simp only [List.mem_singleton, forall_eq]
      exact ⟨single_ok (by omega), by simp only [Block.start]; omega, rfl⟩
    · simp only [used_cons, used_nil, Block.uses]
      (repeat' split) <;> omega
    · intro m t p h1 h2
      show cost (m + (0 : Nat)) (t + (0 : Nat)) (p + (1 : Nat)) ≤ cost (m + (0 : Nat)) (t + (1 : Nat)) (p + (0 : Nat))
      unfold cost
      omega
  · refine ⟨[], ?_, fun j => ?_, ?_, by simp [phi, sets, singles, Block.isSet, Block.isSingle],
      by simp [wt, sets, singles, taatsus, toitsus, List.countP_cons, Block.isSet, Block.isSingle, Block.isTaatsu, Block.isToitsu]⟩
    · simp
    · simp only [used_cons, used_nil, Block.uses]
      (repeat' split) <;> omega
    · intro m t p h1 h2
      show cost (m + (0 : Nat)) (t + (0 : Nat)) (p + (1 : Nat)) ≤ cost (m + (0 : Nat)) (t + (0 : Nat)) (p + (0 : Nat))
      unfold cost
      omega

/-- three tiles, two of them outside runs -/
theorem advance_loose3 {x y z : Block} {R : List Block} (hi : i < 27) (h : Split i q (x :: y :: z :: R)) (c : at37 q.hand i = 3)
    (hy : Loose i y) (hz : Loose i z) : Advance i q (x :: y :: z :: R) := by
  obtain ⟨C, c1, c2, c3, c4, c5⟩ := combine hy hz hi (h.ok y (by simp)) (h.ok z (by simp))
  have e : (x :: y :: z :: R).Perm ([y, z] ++ (x :: R)) := List.perm_middle (l₁ := [y, z]) |>.symm
  have h' : Split i q ((.toitsu i :: C) ++ (x :: R)) := by
    refine (h.perm e).rewrite _ ?_ ?_ ?_ c2
    · exact List.forall_mem_cons.2 ⟨toitsu_ok hi, fun b hb => (c1 b hb).1⟩
    · exact List.forall_mem_cons.2 ⟨Nat.le_refl _, fun b hb => (c1 b hb).2.1⟩
    · exact List.forall_mem_cons.2 ⟨rfl, fun b hb => (c1 b hb).2.2⟩
  obtain ⟨br, ht, _⟩ := took_toitsu3 hi h' c
  refine Advance.perm (ht.advance (B := [y, z] ++ (x :: R)) (val_le _ h.nonneg c3) ?_ ?_) e.symm
  · show phi (C ++ (x :: R)) ≤ _
    rw [phi_append, phi_append]; omega
  · show wt (C ++ (x :: R)) < _
    rw [wt_append, wt_append]; omega

/-- four tiles, two of them outside runs -/
theorem advance_loose4 {x y z w : Block} {R : List Block} (hi : i < 27) (h : Split i q (x :: y :: z :: w :: R))
    (c : at37 q.hand i = 4) (hx : Piece i x) (hz : Loose i z) (hw : Loose i w) : Advance i q (x :: y :: z :: w :: R) := by
  obtain ⟨C, c1, c2, c3, c4, c5⟩ := combine hz hw hi (h.ok z (by simp)) (h.ok w (by simp))
  have e : (x :: y :: z :: w :: R).Perm ([z, w] ++ (x :: y :: R)) := by
    have := List.perm_append_comm_assoc [x, y] [z, w] R
    exact this
  have h' : Split i q ((.toitsu i :: C) ++ (x :: y :: R)) := by
    refine (h.perm e).rewrite _ ?_ ?_ ?_ c2
    · exact List.forall_mem_cons.2 ⟨toitsu_ok hi, fun b hb => (c1 b hb).1⟩
    · exact List.forall_mem_cons.2 ⟨Nat.le_refl _, fun b hb => (c1 b hb).2.1⟩
    · exact List.forall_mem_cons.2 ⟨rfl, fun b hb => (c1 b hb).2.2⟩
  have e' : ((.toitsu i :: C) ++ (x :: y :: R)).Perm (.toitsu i :: x :: (C ++ (y :: R))) :=
    (List.perm_middle (l₁ := C) (a := x) (l₂ := y :: R)).cons _
  obtain ⟨br, ht⟩ := took_toitsu4 hi (h'.perm e') c hx
  refine Advance.perm (ht.advance (B := [z, w] ++ (x :: y :: R)) ?_ ?_ ?_) e.symm
  · rw [← val_perm e']
    exact val_le _ h.nonneg c3
  · rw [phi_append, phi_append, phi_cons x]; omega
  · rw [wt_append, wt_append, wt_cons x]; omega

/-- three equal runs are three triplets -/
theorem Split.runs {R : List Block} (h : Split i q ([.shuntsu i, .shuntsu i, .shuntsu i] ++ R)) :
    Split i q ([.koutsu i, .koutsu (i + 1), .koutsu (i + 2)] ++ R) := by
  have hv := (h.ok (.shuntsu i) (by simp)).1
  simp only [Block.valid, decide_eq_true_eq] at hv
  refine h.rewrite _ ?_ ?_ ?_ (fun j => ?_)
  · simp only [List.mem_cons, List.not_mem_nil, or_false]
    rintro b (rfl | rfl | rfl) <;> exact koutsu_ok (by omega)
  · simp only [List.mem_cons, List.not_mem_nil, or_false]
    rintro b (rfl | rfl | rfl) <;> simp only [Block.start] <;> omega
  · simp [Block.isMarked]
  · simp only [used_cons, used_nil, Block.uses]
    (repeat' split) <;> omega

/-- two runs and the first two tiles of a third are two triplets and a pair -/
theorem Split.runsTaatsu2 {R : List Block} (h : Split i q ([.shuntsu i, .shuntsu i, .taatsu i 2] ++ R)) :
    Split i q ([.koutsu i, .koutsu (i + 1), .toitsu (i + 2)] ++ R) := by
  have hv := (h.ok (.shuntsu i) (by simp)).1
  simp only [Block.valid, decide_eq_true_eq] at hv
  refine h.rewrite _ ?_ ?_ ?_ (fun j => ?_)
  · simp only [List.mem_cons, List.not_mem_nil, or_false]
    rintro b (rfl | rfl | rfl)
    · exact koutsu_ok (by omega)
    · exact koutsu_ok (by omega)
    · exact toitsu_ok (by omega)
  · simp only [List.mem_cons, List.not_mem_nil, or_false]
    rintro b (rfl | rfl | rfl) <;> simp only [Block.start] <;> omega
  · simp [Block.isMarked]
  · simp only [used_cons, used_nil, Block.uses]
    (repeat' split) <;> omega

/-- two runs and the outer tiles of a third are two triplets and a pair -/
theorem Split.runsTaatsu1 {R : List Block} (h : Split i q ([.shuntsu i, .shuntsu i, .taatsu i 1] ++ R)) :
    Split i q ([.koutsu i, .toitsu (i + 1), .koutsu (i + 2)] ++ R) := by
  have hv := (h.ok (.shuntsu i) (by simp)).1
  simp only [Block.valid, decide_eq_true_eq] at hv
  refine h.rewrite _ ?_ ?_ ?_ (fun j => ?_)
  · simp only [List.mem_cons, List.not_mem_nil, or_false]
    rintro b (rfl | rfl | rfl)
    · exact koutsu_ok (by omega)
    · exact toitsu_ok (by omega)
    · exact koutsu_ok (by omega)
  · simp only [List.mem_cons, List.not_mem_nil, or_false]
    rintro b (rfl | rfl | rfl) <;> simp only [Block.start] <;> omega
  · simp [Block.isMarked]
  · simp only [used_cons, used_nil, Block.uses]
    (repeat' split) <;> omega

/-- two runs and the first tile of a third are a pair, a run and a partial run -/
theorem Split.runsSingle {R : List Block} (h : Split i q ([.shuntsu i, .shuntsu i, .single i false] ++ R)) :
    Split i q ([.toitsu i, .shuntsu i, .taatsu (i + 1) 2] ++ R) := by
  have hv := (h.ok (.shuntsu i) (by simp)).1
  simp only [Block.valid, decide_eq_true_eq] at hv
  refine h.rewrite _ ?_ ?_ ?_ (fun j => ?_)
  · simp only [List.mem_cons, List.not_mem_nil, or_false]
    rintro b (rfl | rfl | rfl)
    · exact toitsu_ok (by omega)
    · exact h.ok _ (by simp)
    · exact ⟨by simp [Block.valid]; omega, by simp only [Block.start]; omega⟩
  · simp only [List.mem_cons, List.not_mem_nil, or_false]
    rintro b (rfl | rfl | rfl) <;> simp only [Block.start] <;> omega
  · simp [Block.isMarked]
  · simp only [used_cons, used_nil, Block.uses]
    (repeat' split) <;> omega

/-- two pairs of one kind are a triplet and a single tile -/
theorem Split.pairs {R : List Block} (h : Split i q ([.toitsu i, .toitsu i] ++ R)) :
    Split i q ([.koutsu i, .single i false] ++ R) := by
  have hv := h.ok (.toitsu i) (by simp)
  refine h.rewrite _ ?_ ?_ ?_ (fun j => ?_)
  · simp only [List.mem_cons, List.not_mem_nil, or_false]
    rintro b (rfl | rfl)
    · exact koutsu_ok hv.2
    · exact ⟨hv.1, hv.2⟩
  · simp only [List.mem_cons, List.not_mem_nil, or_false]
    rintro b (rfl | rfl) <;> simp only [Block.start] <;> omega
  · simp [Block.isMarked]
  · simp only [used_cons, used_nil, Block.uses]
    (repeat' split) <;> omega

theorem advance_pairs {R : List Block} (hi : i < 27) (h : Split i q (.toitsu i :: .toitsu i :: R)) (c : at37 q.hand i = 4) :
    Advance i q (.toitsu i :: .toitsu i :: R) := by
  obtain ⟨br, ht⟩ := took_koutsu4 hi (Split.pairs h) c (.inr (.inr (.inr rfl)))
  refine ht.advance (val_le (A := [.toitsu i, .toitsu i]) (A' := [.koutsu i, .single i false]) R h.nonneg ?_) ?_ ?_
  · intro m t p h1 h2
    show cost (m + (1 : Nat)) (t + (0 : Nat)) (p + (0 : Nat)) ≤ cost (m + (0 : Nat)) (t + (0 : Nat)) (p + (2 : Nat))
    unfold cost
    omega
  · show phi R ≤ _
    rw [phi_cons (.toitsu i) (.toitsu i :: R), phi_cons (.toitsu i) R]; omega
  · show wt R < _
    have := wt_block (.toitsu i)
    rw [wt_cons (.toitsu i) (.toitsu i :: R), wt_cons (.toitsu i) R]; omega

/-- three tiles, two runs and a run or partial run -/
theorem advance_runs3 {z : Block} {R : List Block} (hi : i < 27) (h : Split i q (.shuntsu i :: .shuntsu i :: z :: R))
    (c : at37 q.hand i = 3) (hz : z = .shuntsu i ∨ z = .taatsu i 1 ∨ z = .taatsu i 2) :
    Advance i q (.shuntsu i :: .shuntsu i :: z :: R) := by
  rcases hz with rfl | rfl | rfl
  · obtain ⟨br, ht⟩ := took_koutsu3 hi (Split.runs h) c
    refine ht.advance (val_le (A := [.shuntsu i, .shuntsu i, .shuntsu i]) (A' := [.koutsu i, .koutsu (i + 1), .koutsu (i + 2)]) R
      h.nonneg ?_) ?_ ?_
    · intro m t p h1 h2
      exact Int.le_refl _
    · show phi ([.koutsu (i + 1), .koutsu (i + 2)] ++ R) ≤ phi ([.shuntsu i, .shuntsu i, .shuntsu i] ++ R)
      rw [phi_append, phi_append]
      show (6 : Nat) + _ ≤ 9 + _
      omega
    · show wt ([.koutsu (i + 1), .koutsu (i + 2)] ++ R) < wt ([.shuntsu i, .shuntsu i, .shuntsu i] ++ R)
      rw [wt_append, wt_append]
      show (6 : Nat) + _ < 9 + _
      omega
  · obtain ⟨br, ht⟩ := took_koutsu3 hi (Split.runsTaatsu1 h) c
    refine ht.advance (val_le (A := [.shuntsu i, .shuntsu i, .taatsu i 1]) (A' := [.koutsu i, .toitsu (i + 1), .koutsu (i + 2)]) R
      h.nonneg ?_) ?_ ?_
    · intro m t p h1 h2
      show cost (m + (2 : Nat)) (t + (0 : Nat)) (p + (1 : Nat)) ≤ cost (m + (2 : Nat)) (t + (1 : Nat)) (p + (0 : Nat))
      unfold cost
      omega
    · show phi ([.toitsu (i + 1), .koutsu (i + 2)] ++ R) ≤ phi ([.shuntsu i, .shuntsu i, .taatsu i 1] ++ R)
      rw [phi_append, phi_append]
      show (3 : Nat) + _ ≤ 6 + _
      omega
    · show wt ([.toitsu (i + 1), .koutsu (i + 2)] ++ R) < wt ([.shuntsu i, .shuntsu i, .taatsu i 1] ++ R)
      rw [wt_append, wt_append]
      show (5 : Nat) + _ < 8 + _
      omega
  · obtain ⟨br, ht⟩ := took_koutsu3 hi (Split.runsTaatsu2 h) c
    refine ht.advance (val_le (A := [.shuntsu i, .shuntsu i, .taatsu i 2]) (A' := [.koutsu i, .koutsu (i + 1), .toitsu (i + 2)]) R
      h.nonneg ?_) ?_ ?_
    · intro m t p h1 h2
      show cost (m + (2 : Nat)) (t + (0 : Nat)) (p + (1 : Nat)) ≤ cost (m + (2 : Nat)) (t + (1 : Nat)) (p + (0 : Nat))
      unfold cost
      omega
    · show phi ([.koutsu (i + 1), .toitsu (i + 2)] ++ R) ≤ phi ([.shuntsu i, .shuntsu i, .taatsu i 2] ++ R)
      rw [phi_append, phi_append]
      show (3 : Nat) + _ ≤ 6 + _
      omega
    · show wt ([.koutsu (i + 1), .toitsu (i + 2)] ++ R) < wt ([.shuntsu i, .shuntsu i, .taatsu i 2] ++ R)
      rw [wt_append, wt_append]
      show (5 : Nat) + _ < 8 + _
      omega

/-- four tiles, three runs and something else -/
theorem advance_runs4 {z : Block} {R : List Block} (hi : i < 27) (h : Split i q (.shuntsu i :: .shuntsu i :: .shuntsu i :: z :: R))
    (c : at37 q.hand i = 4) (hz : Piece i z) : Advance i q (.shuntsu i :: .shuntsu i :: .shuntsu i :: z :: R) := by
  have h' := Split.runs (R := z :: R) h
  have e : ([Block.koutsu i, .koutsu (i + 1), .koutsu (i + 2)] ++ (z :: R)).Perm
      (.koutsu i :: z :: ([Block.koutsu (i + 1), .koutsu (i + 2)] ++ R)) :=
    (List.perm_middle (l₁ := [.koutsu (i + 1), .koutsu (i + 2)]) (a := z) (l₂ := R)).cons _
  obtain ⟨br, ht⟩ := took_koutsu4 hi (h'.perm e) c hz
  have e0 : .shuntsu i :: .shuntsu i :: .shuntsu i :: z :: R = [Block.shuntsu i, .shuntsu i, .shuntsu i] ++ (z :: R) := rfl
  rw [e0]
  refine ht.advance ?_ ?_ ?_
  · rw [← val_perm e]
    exact val_le (A := [.shuntsu i, .shuntsu i, .shuntsu i]) (A' := [.koutsu i, .koutsu (i + 1), .koutsu (i + 2)]) _ h.nonneg
      (fun m t p _ _ => Int.le_refl _)
  · rw [phi_append, phi_append, phi_cons z]
    show (6 : Nat) + _ ≤ 9 + _
    omega
  · rw [wt_append, wt_append, wt_cons z]
    show (6 : Nat) + _ < 9 + _
    omega

/-- the search goes on with a split that is not worse, except for two runs beside a third tile of their first kind -/
theorem advance_or {B : List Block} (hi : i < 27) (h : Split i q B) (hp : 0 < at37 q.hand i) :
    Advance i q B ∨ (at37 q.hand i = 3 ∧ ∃ R, B.Perm (.shuntsu i :: .shuntsu i :: .single i false :: R)) := by
  have hex := h.exact i (Nat.le_refl _) hi
  have h4 := h.le4 i (Nat.le_refl _) hi
  have take : ∀ {b : Block} {B' : List Block} {br}, Took i q (b :: B') br B' → B.Perm (b :: B') → Advance i q B := by
    intro b B' br ht e
    refine Advance.perm (ht.advance (Int.le_refl _) ?_ ?_) e.symm
    · rw [phi_cons b]; omega
    · have := wt_block b
      rw [wt_cons b]; omega
  have take2 : ∀ {a b : Block} {B' : List Block} {br}, Took i q (a :: b :: B') br B' → B.Perm (a :: b :: B') → Advance i q B := by
    intro a b B' br ht e
    refine Advance.perm (ht.advance (Int.le_refl _) ?_ ?_) e.symm
    · rw [phi_cons a, phi_cons b]; omega
    · have := wt_block a
      rw [wt_cons a, wt_cons b]; omega
  by_cases hk : Block.koutsu i ∈ B
  · obtain ⟨B1, e⟩ := perm_cons_of_mem hk
    have hI := h.perm e
    have hu : used B i = 3 + used B1 i := by rw [used_perm e, used_cons, uses_koutsu]
    by_cases c : at37 q.hand i = 3
    · obtain ⟨br, ht⟩ := took_koutsu3 hi hI c
      exact .inl (take ht e)
    · have c4 : at37 q.hand i = 4 := by omega
      obtain ⟨b, hb, hbu⟩ := exists_of_used (B := B1) (j := i) (by omega)
      obtain ⟨B2, e2⟩ := perm_cons_of_mem hb
      have hpc : Piece i b := by
        have hu2 : used B1 i = b.uses i + used B2 i := by rw [used_perm e2, used_cons]
        rcases block_cases (hI.covers (List.mem_cons_of_mem _ hb) hbu) (hI.mark b (by simp [hb])) (hI.ok b (by simp [hb])) with rfl | rfl | h'
        · rw [uses_koutsu] at hu2; omega
        · rw [uses_toitsu] at hu2; omega
        · exact h'
      have e3 := e.trans (e2.cons _)
      obtain ⟨br, ht⟩ := took_koutsu4 hi (h.perm e3) c4 hpc
      exact .inl (take2 ht e3)
  · by_cases ht : Block.toitsu i ∈ B
    · obtain ⟨B1, e⟩ := perm_cons_of_mem ht
      have hI := h.perm e
      have hu : used B i = 2 + used B1 i := by rw [used_perm e, used_cons, uses_toitsu]
      by_cases ht' : Block.toitsu i ∈ B1
      · obtain ⟨B2, e2⟩ := perm_cons_of_mem ht'
        have e3 := e.trans (e2.cons _)
        have hu2 : used B1 i = 2 + used B2 i := by rw [used_perm e2, used_cons, uses_toitsu]
        exact .inl ((advance_pairs hi (h.perm e3) (by omega)).perm e3.symm)
      · by_cases c2 : at37 q.hand i = 2
        · obtain ⟨br, ht⟩ := took_toitsu2 hi hI c2
          exact .inl (take ht e)
        · by_cases c3 : at37 q.hand i = 3
          · obtain ⟨br, ht, _⟩ := took_toitsu3 hi hI c3
            exact .inl (take ht e)
          · obtain ⟨b, hb, hbu⟩ := exists_of_used (B := B1) (j := i) (by omega)
            obtain ⟨B2, e2⟩ := perm_cons_of_mem hb
            have hbB : b ∈ B := e.mem_iff.2 (by simp [hb])
            have hpc : Piece i b := by
              rcases block_cases (h.covers hbB hbu) (h.mark b hbB) (h.ok b hbB) with rfl | rfl | h'
              · exact absurd hbB hk
              · exact absurd hb ht'
              · exact h'
            have e3 := e.trans (e2.cons _)
            obtain ⟨br, ht⟩ := took_toitsu4 hi (h.perm e3) (by omega) hpc
            exact .inl (take2 ht e3)
    · have next : ∀ C : List Block, (∀ b ∈ C, b ∈ B) → 1 ≤ used C i → ∃ b C', C.Perm (b :: C') ∧ Piece i b ∧
          (∀ b ∈ C', b ∈ B) ∧ used C i = 1 + used C' i := by
        intro C hC hu
        obtain ⟨b, hb, hu'⟩ := exists_of_used hu
        obtain ⟨C', e⟩ := perm_cons_of_mem hb
        have hc := h.cases hk ht (hC b hb) hu'
        refine ⟨b, C', e, hc, fun b' hb' => hC b' (e.mem_iff.2 (by simp [hb'])), ?_⟩
        rw [used_perm e, used_cons, uses_other hc]
      obtain ⟨x, C1, e1, hx, m1, u1⟩ := next B (fun b hb => hb) (by omega)
      by_cases c : at37 q.hand i = 1 ∨ at37 q.hand i = 2
      · obtain ⟨br, ht⟩ := took_piece hi (h.perm e1) c hx
        exact .inl (take ht e1)
      obtain ⟨y, C2, e2, hy, m2, u2⟩ := next C1 m1 (by omega)
      obtain ⟨z, C3, e3, hz, m3, u3⟩ := next C2 m2 (by omega)
      have hB : B.Perm (x :: y :: z :: C3) := e1.trans ((e2.trans (e3.cons _)).cons _)
      by_cases c3 : at37 q.hand i = 3
      · -- three tiles
        have runs : ∀ {z R}, B.Perm (.shuntsu i :: .shuntsu i :: z :: R) → Piece i z →
            Advance i q B ∨ (at37 q.hand i = 3 ∧ ∃ R, B.Perm (.shuntsu i :: .shuntsu i :: .single i false :: R)) := by
          intro z R e hz
          rcases hz with hz | hz | hz | rfl
          · exact .inl ((advance_runs3 hi (h.perm e) c3 (.inl hz)).perm e.symm)
          · exact .inl ((advance_runs3 hi (h.perm e) c3 (.inr (.inl hz))).perm e.symm)
          · exact .inl ((advance_runs3 hi (h.perm e) c3 (.inr (.inr hz))).perm e.symm)
          · exact .inr ⟨c3, R, e⟩
        have loose : ∀ {x y z R}, B.Perm (x :: y :: z :: R) → Loose i y → Loose i z → Advance i q B :=
          fun e hy hz => (advance_loose3 hi (h.perm e) c3 hy hz).perm e.symm
        by_cases hx1 : x = .shuntsu i
        · subst hx1
          by_cases hy1 : y = .shuntsu i
          · subst hy1
            exact runs hB hz
          · by_cases hz1 : z = .shuntsu i
            · subst hz1
              exact runs (hB.trans (List.Perm.cons _ (List.Perm.swap _ _ _))) hy
            · exact .inl (loose hB (hy.loose hy1) (hz.loose hz1))
        · by_cases hy1 : y = .shuntsu i
          · subst hy1
            by_cases hz1 : z = .shuntsu i
            · subst hz1
              exact runs (hB.trans ((List.Perm.swap _ _ _).trans (List.Perm.cons _ (List.Perm.swap _ _ _)))) hx
            · exact .inl (loose (hB.trans (List.Perm.swap _ _ _)) (hx.loose hx1) (hz.loose hz1))
          · exact .inl (loose (hB.trans ((List.Perm.cons _ (List.Perm.swap _ _ _)).trans (List.Perm.swap _ _ _)))
              (hx.loose hx1) (hy.loose hy1))
      · -- four tiles
        obtain ⟨w, C4, e4, hw, m4, u4⟩ := next C3 m3 (by omega)
        have hB4 : B.Perm (x :: y :: z :: w :: C4) := hB.trans (((e4.cons _).cons _).cons _)
        have c4 : at37 q.hand i = 4 := by omega
        refine .inl ?_
        have runs : ∀ {z R}, B.Perm (.shuntsu i :: .shuntsu i :: .shuntsu i :: z :: R) → Piece i z → Advance i q B :=
          fun e hz => (advance_runs4 hi (h.perm e) c4 hz).perm e.symm
        have loose : ∀ {x y z w R}, B.Perm (x :: y :: z :: w :: R) → Piece i x → Loose i z → Loose i w → Advance i q B :=
          fun e hx hz hw => (advance_loose4 hi (h.perm e) c4 hx hz hw).perm e.symm
        have p1 : ∀ {a b c d : Block} {R}, (a :: b :: c :: d :: R).Perm (c :: d :: a :: b :: R) :=
          fun {a b c d R} => List.perm_append_comm_assoc [a, b] [c, d] R
        have s2 : ∀ {a b c d : Block} {R}, (a :: b :: c :: d :: R).Perm (a :: c :: b :: d :: R) :=
          (List.Perm.cons _ (List.Perm.swap _ _ _))
        have s3 : ∀ {a b c d : Block} {R}, (a :: b :: c :: d :: R).Perm (a :: b :: d :: c :: R) :=
          (List.Perm.cons _ (List.Perm.cons _ (List.Perm.swap _ _ _)))
        by_cases hx1 : x = .shuntsu i
        · by_cases hy1 : y = .shuntsu i
          · by_cases hz1 : z = .shuntsu i
            · subst hx1; subst hy1; subst hz1
              exact runs hB4 hw
            · by_cases hw1 : w = .shuntsu i
              · subst hx1; subst hy1; subst hw1
                exact runs (hB4.trans s3) hz
              · exact loose hB4 hx (hz.loose hz1) (hw.loose hw1)
          · by_cases hz1 : z = .shuntsu i
            · by_cases hw1 : w = .shuntsu i
              · subst hx1; subst hz1; subst hw1
                exact runs (hB4.trans (s2.trans s3)) hy
              · exact loose (hB4.trans s2) hx (hy.loose hy1) (hw.loose hw1)
            · exact loose (hB4.trans (s3.trans s2)) hx (hy.loose hy1) (hz.loose hz1)
        · have s1 : (x :: y :: z :: w :: C4).Perm (y :: x :: z :: w :: C4) := List.Perm.swap _ _ _
          by_cases hy1 : y = .shuntsu i
          · by_cases hz1 : z = .shuntsu i
            · by_cases hw1 : w = .shuntsu i
              · subst hy1; subst hz1; subst hw1
                exact runs (hB4.trans (s1.trans (s2.trans s3))) hx
              · exact loose (hB4.trans (s1.trans s2)) hy (hx.loose hx1) (hw.loose hw1)
            · exact loose (hB4.trans (s1.trans (s3.trans s2))) hy (hx.loose hx1) (hz.loose hz1)
          · exact loose (hB4.trans p1) hz (hx.loose hx1) (hy.loose hy1)

/-- two runs beside a third tile of their first kind: the search takes a pair, a run and a partial run -/
theorem bad_step {R : List Block} (hi : i < 27) (h : Split i q (.shuntsu i :: .shuntsu i :: .single i false :: R))
    (c : at37 q.hand i = 3) : ∃ br1 br2,
      Took i q (.toitsu i :: .shuntsu i :: .taatsu (i + 1) 2 :: R) br1 (.shuntsu i :: .taatsu (i + 1) 2 :: R) ∧ br1.2 = i ∧
      at37 (q.addAll br1.1).hand i = 1 ∧
      Took i (q.addAll br1.1) (.shuntsu i :: .taatsu (i + 1) 2 :: R) br2 (.taatsu (i + 1) 2 :: R) := by
  have h' : Split i q (.toitsu i :: .shuntsu i :: .taatsu (i + 1) 2 :: R) := Split.runsSingle h
  obtain ⟨br1, ht, rfl⟩ := took_toitsu3 hi h' c
  have h1 : at37 (q.addAll [.toitsu i]).hand i = 1 := by
    show at37 (q.add (.toitsu i)).hand i = 1
    rw [add_at h.len (toitsu_ok hi) i, uses_toitsu]; omega
  obtain ⟨br2, ht2⟩ := took_piece hi ht.split (.inl h1) (.inl rfl)
  exact ⟨_, br2, ht, rfl, h1, ht2⟩

theorem bad_val (R : List Block) (hq : 0 ≤ q.t ∧ 0 ≤ q.p) :
    val q (.toitsu i :: .shuntsu i :: .taatsu (i + 1) 2 :: R) ≤ val q (.shuntsu i :: .shuntsu i :: .single i false :: R) + 1 ∧
    (q.p + toitsus R = 0 →
      val q (.toitsu i :: .shuntsu i :: .taatsu (i + 1) 2 :: R) ≤ val q (.shuntsu i :: .shuntsu i :: .single i false :: R)) := by
  have e1 : val q (.toitsu i :: .shuntsu i :: .taatsu (i + 1) 2 :: R) = cost (q.m + sets R + 1) (q.t + taatsus R + 1) (q.p + toitsus R + 1) := by
    unfold val
    obtain ⟨b1, b2, b3, _⟩ := counts_append [.toitsu i, .shuntsu i, .taatsu (i + 1) 2] R
    simp only [List.cons_append, List.nil_append] at b1 b2 b3
    rw [b1, b2, b3]
    show cost (q.m + ((1 + sets R : Nat) : Int)) (q.t + ((1 + taatsus R : Nat) : Int)) (q.p + ((1 + toitsus R : Nat) : Int)) = _
    congr 1 <;> omega
  have e2 : val q (.shuntsu i :: .shuntsu i :: .single i false :: R) = cost (q.m + sets R + 2) (q.t + taatsus R) (q.p + toitsus R) := by
    unfold val
    obtain ⟨b1, b2, b3, _⟩ := counts_append [.shuntsu i, .shuntsu i, .single i false] R
    simp only [List.cons_append, List.nil_append] at b1 b2 b3
    rw [b1, b2, b3]
    show cost (q.m + ((2 + sets R : Nat) : Int)) (q.t + ((0 + taatsus R : Nat) : Int)) (q.p + ((0 + toitsus R : Nat) : Int)) = _
    congr 1 <;> omega
  rw [e1, e2]
  generalize q.m + (sets R : Int) = m
  have ht : 0 ≤ q.t + (taatsus R : Int) := by omega
  have hp : 0 ≤ q.p + (toitsus R : Int) := by omega
  revert ht hp
  generalize q.t + (taatsus R : Int) = t
  generalize q.p + (toitsus R : Int) = p
  intro ht hp
  unfold cost
  omega

theorem found_end {idx : Nat} {B : List Block} (hidx : idx ≤ 27) (h : Split idx q B) (h27 : nextIdx q.hand idx = 27) :
    Found (val q B) idx q := by
  have hI := h.nextIdx hidx
  have hB : B = [] := by
    cases B with
    | nil => rfl
    | cons b B =>
      have := hI.start b (by simp)
      have := (h.ok b (by simp)).2
      omega
  subst hB
  refine ⟨q.value, .done h27, ?_⟩
  unfold Pos.value val
  rw [cost_distance, h.tune]
  simp [sets, taatsus, toitsus]

/-- nowhere three tiles of a kind and two of each of the next two -/
def NoPattern (h : List Int) : Prop :=
  ∀ i, i < 27 → i % 9 < 7 → ¬ (3 ≤ at37 h i ∧ 2 ≤ at37 h (i + 1) ∧ 2 ≤ at37 h (i + 2))

theorem NoPattern.mono {h h' : List Int} (hn : NoPattern h) (hle : ∀ j, at37 h' j ≤ at37 h j) : NoPattern h' := by
  intro i h1 h2 h3
  have := hle i
  have := hle (i + 1)
  have := hle (i + 2)
  exact hn i h1 h2 (by omega)

theorem pattern_of_bad {R : List Block} (h : Split i q (.shuntsu i :: .shuntsu i :: .single i false :: R))
    (c : at37 q.hand i = 3) : ¬ NoPattern q.hand := by
  intro hn
  have hv := (h.ok (.shuntsu i) (by simp)).1
  simp only [Block.valid, decide_eq_true_eq] at hv
  have a := h.exact (i + 1) (by omega) (by omega)
  have b := h.exact (i + 2) (by omega) (by omega)
  simp only [used_cons, Block.uses] at a b
  have e1 : (i + 1 = i) = False := by simp
  have e2 : (i + 2 = i) = False := by simp
  simp only [e1, e2, true_or, or_true, if_true, if_false] at a b
  exact hn i hv.1 hv.2 (by omega)

end

theorem Found.mono {d d' : Int} {idx : Nat} {q : Pos} (h : Found d idx q) (hd : d ≤ d') : Found d' idx q := by
  obtain ⟨v, h1, h2⟩ := h
  exact ⟨v, h1, by omega⟩

/-- the search comes within one of every split, and reaches it without the pattern or with few tiles in sets -/
theorem near (n : Nat) : ∀ (idx : Nat) (q : Pos) (B : List Block), depth q.hand idx < n → idx ≤ 27 → Split idx q B →
    (phi B < 7 ∨ NoPattern q.hand → Found (val q B) idx q) ∧
    (phi B < 14 ∨ (wt B ≤ 14 ∧ q.p = 0) → Found (val q B + 1) idx q) := by
  induction n with
  | zero => intro idx q B h; omega
  | succ n ihn =>
    intro idx q B hdep hidx h
    by_cases h27 : nextIdx q.hand idx = 27
    · have hf := found_end hidx h h27
      exact ⟨fun _ => hf, fun _ => hf.mono (by omega)⟩
    · obtain ⟨n1, n2, n3, _⟩ := nextIdx_spec q.hand hidx
      have hI := h.nextIdx hidx
      have hnz := n3 h27
      have hdep' : depth q.hand (nextIdx q.hand idx) ≤ n := by unfold depth at *; omega
      have step : ∀ d, ∀ br ∈ branches q.hand (nextIdx q.hand idx), Found d br.2 (q.addAll br.1) → Found d idx q := by
        rintro d br hb ⟨v, hv, hv'⟩
        exact ⟨v, .step h27 hb hv, hv'⟩
      generalize hi : nextIdx q.hand idx = i at *
      have hi27 : i < 27 := by omega
      have hpos : 0 < at37 q.hand i := by
        have := hI.exact i (Nat.le_refl _) hi27
        omega
      -- the claim after a step
      have ih : ∀ {q1 : Pos} {B0 : List Block} {br B'}, q1.hand.length = 37 → depth q1.hand i ≤ n → 0 < at37 q1.hand i → Took i q1 B0 br B' →
          depth (q1.addAll br.1).hand br.2 < n ∧ (∀ j, at37 (q1.addAll br.1).hand j ≤ at37 q1.hand j) := by
        intro q1 B0 br B' hl hd hp ht
        have := suitSum_addAll hl ht.ok hi27 hp ht.uses
        have := ht.ge
        have := ht.le
        refine ⟨by unfold depth at *; omega, fun j => ?_⟩
        rw [addAll_at hl ht.ok]; omega
      rcases advance_or hi27 hI hpos with ⟨B0, br, B', ht, hv, hph, hw⟩ | ⟨c, R, e⟩
      · obtain ⟨d1, d2⟩ := ih hI.len hdep' hpos ht
        obtain ⟨i1, i2⟩ := ihn br.2 (q.addAll br.1) B' d1 ht.le ht.split
        have hs := ht.same
        have := phi_le_wt B'
        refine ⟨fun hh => step _ br ht.mem ?_, fun hh => step _ br ht.mem ?_⟩
        · refine (i1 ?_).mono (by omega)
          rcases hh with hh | hh
          · exact .inl (by omega)
          · exact .inr (hh.mono d2)
        · refine (i2 (.inl ?_)).mono (by omega)
          rcases hh with hh | hh <;> omega
      · have hI' := hI.perm e
        obtain ⟨br1, br2, t1, hb, hc, t2⟩ := bad_step hi27 hI' c
        obtain ⟨d1, d2⟩ := ih hI.len hdep' hpos t1
        have hl1 : (q.addAll br1.1).hand.length = 37 := by rw [addAll_length, hI.len]
        rw [hb] at d1
        obtain ⟨d3, d4⟩ := ih hl1 (by omega) (by omega) t2
        obtain ⟨i1, i2⟩ := ihn br2.2 ((q.addAll br1.1).addAll br2.1) _ d3 t2.le t2.split
        have hs1 := t1.same
        have hs2 := t2.same
        obtain ⟨v1, v2⟩ := bad_val (i := i) R hI.nonneg
        have hnx : nextIdx (q.addAll br1.1).hand i = i := by
          obtain ⟨k1, k2, k3, k4⟩ := nextIdx_spec (q.addAll br1.1).hand (idx := i) (by omega)
          apply Classical.byContradiction
          intro hne
          have := k4 i (Nat.le_refl _) (by omega)
          omega
        have step2 : ∀ d, Found d br2.2 ((q.addAll br1.1).addAll br2.1) → Found d idx q := by
          rintro d ⟨v, hv, hv'⟩
          refine step d br1 t1.mem ⟨v, ?_, hv'⟩
          rw [hb]
          have h27' : nextIdx (q.addAll br1.1).hand i ≠ 27 := by omega
          have hm := t2.mem
          refine .step h27' (by rw [hnx]; exact hm) hv
        have hphi : phi B = 7 + phi R := by
          rw [phi_perm e]
          show phi ([.shuntsu i, .shuntsu i, .single i false] ++ R) = _
          rw [phi_append]
          rfl
        have hwt : wt B = 7 + wt R := by
          rw [wt_perm e]
          show wt ([.shuntsu i, .shuntsu i, .single i false] ++ R) = _
          rw [wt_append]
          rfl
        have hphi' : phi (.taatsu (i + 1) 2 :: R) = phi R := by
          rw [phi_cons]
          show 0 + _ = _
          omega
        rw [val_perm e]
        rw [hphi'] at i1 i2
        refine ⟨fun hh => ?_, fun hh => step2 _ ?_⟩
        · rcases hh with hh | hh
          · omega
          · exact absurd hh (pattern_of_bad hI' c)
        · by_cases hlt : phi R < 7
          · exact (i1 (.inl hlt)).mono (by omega)
          · have hh' : wt B ≤ 14 ∧ q.p = 0 := by omega
            have h0 : toitsus R = 0 := by
              have : phi R + 2 * toitsus R ≤ wt R := by unfold phi wt; omega
              omega
            have := v2 (by omega)
            refine (i2 (.inl ?_)).mono (by omega)
            have := phi_le_wt R
            omega

end MJ
