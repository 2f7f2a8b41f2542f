import Verif.Proofs.ShantenTerm
/-!
The branches of the shanten search take blocks that the hand contains.
-/
namespace MJ
open Spec

/-- the kind at which a block starts -/
def Spec.Block.start : Block → Nat
  | .koutsu i => i
  | .shuntsu i => i
  | .toitsu i => i
  | .taatsu i _ => i
  | .single i _ => i

/-- valid, and of suited tiles -/
def Spec.Block.ok (b : Block) : Prop := b.valid = true ∧ b.start < 27

theorem used_nil (j : Nat) : used [] j = 0 := rfl
theorem used_cons (b : Block) (B : List Block) (j : Nat) : used (b :: B) j = b.uses j + used B j := by
  simp [used]
theorem used_append (A B : List Block) (j : Nat) : used (A ++ B) j = used A j + used B j := by
  simp [used]

theorem Spec.Block.ok.uses_zero {b : Block} (h : b.ok) {j : Nat} (hj : 27 ≤ j) : b.uses j = 0 := by
  obtain ⟨h1, h2⟩ := h
  cases b <;> simp only [Block.valid, Block.start, decide_eq_true_eq] at h1 h2 <;> simp only [Block.uses] <;>
    rw [if_neg (by omega)]

theorem add_length (q : Pos) (b : Block) : (q.add b).hand.length = q.hand.length := by
  cases b <;> simp [Pos.add, bump3, bump_length]

theorem add_at {q : Pos} (hl : q.hand.length = 37) {b : Block} (hb : b.ok) (j : Nat) :
    at37 (q.add b).hand j = at37 q.hand j - b.uses j := by
  obtain ⟨h1, h2⟩ := hb
  have hl3 : ∀ i, (bump3 q.hand i (-1)).length = 37 := fun i => by simp [bump3, bump_length, hl]
  cases b <;> simp only [Block.valid, Block.start, decide_eq_true_eq] at h1 h2 <;>
    simp only [Block.uses, Pos.add, at37_bump', at37_bump3', hl, hl3] <;> (repeat' split) <;> omega

theorem addAll_nil (q : Pos) : q.addAll [] = q := rfl
theorem addAll_cons (q : Pos) (b : Block) (B : List Block) : q.addAll (b :: B) = (q.add b).addAll B := rfl
theorem addAll_append (q : Pos) (A B : List Block) : q.addAll (A ++ B) = (q.addAll A).addAll B := by
  simp [Pos.addAll]

theorem addAll_length (q : Pos) (B : List Block) : (q.addAll B).hand.length = q.hand.length := by
  induction B generalizing q with
  | nil => rfl
  | cons b B ih => rw [addAll_cons, ih, add_length]

theorem addAll_at {q : Pos} (hl : q.hand.length = 37) {B : List Block} (hB : ∀ b ∈ B, b.ok) (j : Nat) :
    at37 (q.addAll B).hand j = at37 q.hand j - used B j := by
  induction B generalizing q with
  | nil => simp [addAll_nil, used_nil]
  | cons b B ih =>
    rw [addAll_cons, ih (by rw [add_length, hl]) (fun b hb => hB b (by simp [hb])), add_at hl (hB b (by simp)), used_cons]
    omega

theorem addAll_counts (q : Pos) (B : List Block) : (q.addAll B).m = q.m + sets B ∧ (q.addAll B).t = q.t + taatsus B ∧
    (q.addAll B).p = q.p + toitsus B ∧ (q.addAll B).tune = q.tune + markeds B := by
  induction B generalizing q with
  | nil => simp [addAll_nil, sets, taatsus, toitsus, markeds]
  | cons b B ih =>
    rw [addAll_cons]
    obtain ⟨h1, h2, h3, h4⟩ := ih (q.add b)
    rw [h1, h2, h3, h4]
    simp only [sets, taatsus, toitsus, markeds, List.countP_cons]
    rcases b with i | i | i | ⟨i, w⟩ | ⟨i, m⟩ <;> (try cases m) <;>
      simp [Pos.add, Block.isSet, Block.isTaatsu, Block.isToitsu, Block.isMarked] <;> omega

/-- blocks of suited tiles that the hand contains -/
structure Fits (h : List Int) (B : List Block) : Prop where
  ok : ∀ b ∈ B, b.ok
  le : ∀ j, (used B j : Int) ≤ at37 h j

theorem shunBranches_fits {h : List Int} {i : Nat} {tune : Bool} (hi : i < 27) (hn : ∀ j, 0 ≤ at37 h j)
    {b : Block} (hb : b ∈ shunBranches h i tune) :
    b.ok ∧ b.start = i ∧ b.uses i = 1 ∧ ∀ j, j ≠ i → (b.uses j : Int) ≤ at37 h j := by
  unfold shunBranches at hb
  simp only [List.mem_append, List.mem_singleton] at hb
  have e1 := hn (i + 1)
  have e2 := hn (i + 2)
  have aux : ∀ j, 0 ≤ at37 h j := hn
  rcases hb with hb | hb | rfl
  · split at hb
    · rename_i hc
      simp only [List.mem_append, List.mem_singleton] at hb
      rcases hb with hb | rfl
      · split at hb
        · rename_i hd
          simp only [List.mem_singleton] at hb
          subst hb
          refine ⟨⟨by simp [Block.valid]; omega, hi⟩, rfl, by simp [Block.uses], fun j hj => ?_⟩
          simp only [Block.uses]
          have := hn j
          split
          · rename_i h'
            rcases h' with rfl | rfl | rfl <;> omega
          · omega
        · simp at hb
      · refine ⟨⟨by simp [Block.valid]; omega, hi⟩, rfl, by simp [Block.uses], fun j hj => ?_⟩
        simp only [Block.uses]
        have := hn j
        split
        · rename_i h'
          rcases h' with ⟨rfl | rfl | rfl, h2⟩ <;> omega
        · omega
    · simp at hb
  · split at hb
    · rename_i hc
      simp only [List.mem_singleton] at hb
      subst hb
      refine ⟨⟨by simp [Block.valid]; omega, hi⟩, rfl, by simp [Block.uses], fun j hj => ?_⟩
      simp only [Block.uses]
      have := hn j
      split
      · rename_i h'
        rcases h' with ⟨rfl | rfl | rfl, h2⟩ <;> omega
      · omega
    · simp at hb
  · refine ⟨⟨by simp [Block.valid]; omega, hi⟩, rfl, by simp [Block.uses], fun j hj => ?_⟩
    simp only [Block.uses, if_neg hj]
    exact hn j

theorem branches_fits {h : List Int} {i : Nat} (hi : i < 27) (hn : ∀ j, 0 ≤ at37 h j)
    {br : List Block × Nat} (hb : br ∈ branches h i) : Fits h br.1 ∧ (br.2 = i ∨ br.2 = i + 1) := by
  have one : ∀ b : Block, b.ok → (∀ j, (b.uses j : Int) ≤ at37 h j) → Fits h [b] := by
    intro b h1 h2
    refine ⟨by simpa using h1, fun j => ?_⟩
    rw [used_cons, used_nil]
    have := h2 j
    omega
  have two : ∀ a b : Block, a.ok → b.ok → (∀ j, (a.uses j : Int) + b.uses j ≤ at37 h j) → Fits h [a, b] := by
    intro a b h1 h1' h2
    refine ⟨by simp [h1, h1'], fun j => ?_⟩
    rw [used_cons, used_cons, used_nil]
    have := h2 j
    omega
  have kok : (Block.koutsu i).ok := ⟨by simp [Block.valid]; omega, hi⟩
  have tok : (Block.toitsu i).ok := ⟨by simp [Block.valid]; omega, hi⟩
  have ku : ∀ j, 3 ≤ at37 h i → ((Block.koutsu i).uses j : Int) ≤ at37 h j := by
    intro j hj
    simp only [Block.uses]
    have := hn j
    split
    · rename_i e; subst e; omega
    · omega
  have tu : ∀ j, 2 ≤ at37 h i → ((Block.toitsu i).uses j : Int) ≤ at37 h j := by
    intro j hj
    simp only [Block.uses]
    have := hn j
    split
    · rename_i e; subst e; omega
    · omega
  unfold branches at hb
  split at hb
  · rename_i c
    simp only [List.mem_append, List.mem_map, List.mem_singleton] at hb
    rcases hb with (⟨b, hb, rfl⟩ | rfl) | ⟨b, hb, rfl⟩
    · obtain ⟨b1, b2, b3, b4⟩ := shunBranches_fits hi hn hb
      refine ⟨two _ _ kok b1 (fun j => ?_), .inl rfl⟩
      by_cases e : j = i
      · subst e; rw [b3]; simp only [Block.uses, if_true]; omega
      · have := b4 j e; have z : (Block.koutsu i).uses j = 0 := if_neg e; omega
    · exact ⟨one _ kok (fun j => ku j (by omega)), .inr rfl⟩
    · obtain ⟨b1, b2, b3, b4⟩ := shunBranches_fits hi hn hb
      refine ⟨two _ _ tok b1 (fun j => ?_), .inl rfl⟩
      by_cases e : j = i
      · subst e; rw [b3]; simp only [Block.uses, if_true]; omega
      · have := b4 j e; have z : (Block.toitsu i).uses j = 0 := if_neg e; omega
  · split at hb
    · rename_i c
      simp only [List.mem_cons, List.not_mem_nil, or_false] at hb
      rcases hb with rfl | rfl
      · exact ⟨one _ kok (fun j => ku j (by omega)), .inr rfl⟩
      · exact ⟨one _ tok (fun j => tu j (by omega)), .inl rfl⟩
    · have single : ∀ b ∈ shunBranches h i false, 1 ≤ at37 h i → Fits h [b] := by
        intro b hb c
        obtain ⟨b1, b2, b3, b4⟩ := shunBranches_fits hi hn hb
        refine one _ b1 (fun j => ?_)
        by_cases e : j = i
        · subst e; rw [b3]; omega
        · exact b4 j e
      split at hb
      · rename_i c
        simp only [List.mem_cons, List.mem_map] at hb
        rcases hb with rfl | ⟨b, hb, rfl⟩
        · exact ⟨one _ tok (fun j => tu j (by omega)), .inr rfl⟩
        · exact ⟨single b hb (by omega), .inl rfl⟩
      · split at hb
        · rename_i c
          simp only [List.mem_map] at hb
          obtain ⟨b, hb, rfl⟩ := hb
          exact ⟨single b hb (by omega), .inl rfl⟩
        · simp at hb

theorem fits_add {q : Pos} (hl : q.hand.length = 37) {A B : List Block} (hA : Fits q.hand A)
    (hB : Fits (q.addAll A).hand B) : Fits q.hand (A ++ B) := by
  refine ⟨?_, fun j => ?_⟩
  · intro b hb
    rcases List.mem_append.1 hb with hb | hb
    · exact hA.ok b hb
    · exact hB.ok b hb
  · have := hB.le j
    rw [addAll_at hl hA.ok] at this
    rw [used_append]
    omega

/-- every end of a branch comes from blocks that the hand contains -/
theorem leaf_blocks {idx : Nat} {q : Pos} {v : Int} (h : Leaf idx q v) (hi : idx ≤ 27) (hl : q.hand.length = 37)
    (hn : ∀ j, 0 ≤ at37 q.hand j) : ∃ B, Fits q.hand B ∧ v = (q.addAll B).value := by
  induction h with
  | @done idx q h => exact ⟨[], ⟨by simp, fun j => by rw [used_nil]; exact hn j⟩, rfl⟩
  | @step idx q v br h hb hl' ih =>
    obtain ⟨n1, n2, n3, _⟩ := nextIdx_spec q.hand hi
    obtain ⟨f1, f2⟩ := branches_fits (by omega) hn hb
    have hn' : ∀ j, 0 ≤ at37 (q.addAll br.1).hand j := by
      intro j
      rw [addAll_at hl f1.ok]
      have := f1.le j
      omega
    obtain ⟨B, b1, b2⟩ := ih (by omega) (by rw [addAll_length, hl]) hn'
    exact ⟨br.1 ++ B, fits_add hl f1 b1, by rw [addAll_append]; exact b2⟩

end MJ
