import Verif.Proofs.ShantenBlocks
/-!
The shanten search goes through the suits one after the other; what it finds in a suit depends on this suit only.
-/
namespace MJ
open Spec

/-- the tiles of suit `s` -/
def suitOf (s : Nat) (h : List Int) (j : Nat) : Int := if j < 9 then at37 h (9 * s + j) else 0

/-- a block of the first suit moved to suit `s` -/
def Spec.Block.toSuit (s : Nat) : Block → Block
  | .koutsu i => .koutsu (9 * s + i)
  | .shuntsu i => .shuntsu (9 * s + i)
  | .toitsu i => .toitsu (9 * s + i)
  | .taatsu i w => .taatsu (9 * s + i) w
  | .single i m => .single (9 * s + i) m

/-- `shunBranches` for the tiles of one suit -/
def shunSuit (f : Nat → Int) (i : Nat) (tune : Bool) : List Block :=
  (if i < 7 ∧ f (i + 2) ≠ 0 then
      (if f (i + 1) ≠ 0 then [Block.shuntsu i] else []) ++ [Block.taatsu i 1] else []) ++
  ((if i < 8 ∧ f (i + 1) ≠ 0 then [Block.taatsu i 2] else []) ++ [Block.single i tune])

/-- `branches` for the tiles of one suit -/
def suitBranches (f : Nat → Int) (i : Nat) : List (List Block × Nat) :=
  if f i = 4 then
    (shunSuit f i true).map (fun b => ([.koutsu i, b], i)) ++ [([.koutsu i], i + 1)] ++
      (shunSuit f i false).map (fun b => ([.toitsu i, b], i))
  else if f i = 3 then [([.koutsu i], i + 1), ([.toitsu i], i)]
  else if f i = 2 then ([.toitsu i], i + 1) :: (shunSuit f i false).map (fun b => ([b], i))
  else if f i = 1 then (shunSuit f i false).map (fun b => ([b], i))
  else []

/-- the search in one suit, from number `i` on, can take the blocks `B` -/
inductive SuitPath : (Nat → Int) → Nat → List Block → Prop
  | done {f : Nat → Int} : SuitPath f 9 []
  | skip {f : Nat → Int} {i : Nat} {B : List Block} (hi : i < 9) (h : f i = 0) (hp : SuitPath f (i + 1) B) : SuitPath f i B
  | step {f : Nat → Int} {i : Nat} {B : List Block} {br : List Block × Nat} (hi : i < 9) (hb : br ∈ suitBranches f i)
      (hp : SuitPath (fun j => f j - used br.1 j) br.2 B) : SuitPath f i (br.1 ++ B)

theorem shunBranches_suit (s : Nat) (h : List Int) {i : Nat} (hi : i < 9) (tune : Bool) :
    shunBranches h (9 * s + i) tune = (shunSuit (suitOf s h) i tune).map (Block.toSuit s) := by
  have hm : (9 * s + i) % 9 = i := by omega
  unfold shunBranches shunSuit
  rw [hm]
  by_cases h8 : i < 8
  · have e1 : suitOf s h (i + 1) = at37 h (9 * s + i + 1) := by simp [suitOf, show i + 1 < 9 by omega, Nat.add_assoc]
    by_cases h7 : i < 7
    · have e2 : suitOf s h (i + 2) = at37 h (9 * s + i + 2) := by simp [suitOf, show i + 2 < 9 by omega, Nat.add_assoc]
      rw [e1, e2]
      by_cases c1 : at37 h (9 * s + i + 1) = 0 <;> by_cases c2 : at37 h (9 * s + i + 2) = 0 <;> simp [h7, h8, c1, c2, Block.toSuit]
    · rw [e1]
      by_cases c1 : at37 h (9 * s + i + 1) = 0 <;> simp [h7, h8, c1, Block.toSuit]
  · simp [h8, show ¬ i < 7 by omega, Block.toSuit]

theorem branches_suit (s : Nat) (h : List Int) {i : Nat} (hi : i < 9) :
    branches h (9 * s + i) = (suitBranches (suitOf s h) i).map (fun br => (br.1.map (Block.toSuit s), 9 * s + br.2)) := by
  have e : suitOf s h i = at37 h (9 * s + i) := by simp [suitOf, hi]
  unfold branches suitBranches
  rw [e, shunBranches_suit s h hi, shunBranches_suit s h hi]
  split
  · simp [Block.toSuit, Function.comp_def, Nat.add_assoc]
  · split
    · simp [Block.toSuit, Nat.add_assoc]
    · split
      · simp [Block.toSuit, Function.comp_def, Nat.add_assoc]
      · split <;> simp [Block.toSuit, Function.comp_def]

/-- blocks inside of the first suit -/
def Spec.Block.first (b : Block) : Prop := b.valid = true ∧ b.start < 9

theorem shunSuit_first {f : Nat → Int} {i : Nat} (hi : i < 9) {tune : Bool} {b : Block} (hb : b ∈ shunSuit f i tune) : b.first := by
  unfold shunSuit at hb
  simp only [List.mem_append, List.mem_singleton] at hb
  rcases hb with hb | hb | rfl
  · split at hb
    · rename_i hc
      simp only [List.mem_append, List.mem_singleton] at hb
      rcases hb with hb | rfl
      · split at hb
        · simp only [List.mem_singleton] at hb
          subst hb
          exact ⟨by simp [Block.valid]; omega, hi⟩
        · simp at hb
      · exact ⟨by simp [Block.valid]; omega, hi⟩
    · simp at hb
  · split at hb
    · simp only [List.mem_singleton] at hb
      subst hb
      exact ⟨by simp [Block.valid]; omega, hi⟩
    · simp at hb
  · exact ⟨by simp [Block.valid]; omega, hi⟩

theorem suitBranches_first {f : Nat → Int} {i : Nat} (hi : i < 9) {br : List Block × Nat} (hb : br ∈ suitBranches f i) :
    (∀ b ∈ br.1, b.first) ∧ (br.2 = i ∨ br.2 = i + 1) ∧ f i ≠ 0 := by
  have kf : (Block.koutsu i).first := ⟨by simp [Block.valid]; omega, hi⟩
  have tf : (Block.toitsu i).first := ⟨by simp [Block.valid]; omega, hi⟩
  unfold suitBranches at hb
  split at hb
  · simp only [List.mem_append, List.mem_map, List.mem_singleton] at hb
    rcases hb with (⟨b, hb, rfl⟩ | rfl) | ⟨b, hb, rfl⟩
    · exact ⟨by simpa using ⟨kf, shunSuit_first hi hb⟩, .inl rfl, by omega⟩
    · exact ⟨by simpa using kf, .inr rfl, by omega⟩
    · exact ⟨by simpa using ⟨tf, shunSuit_first hi hb⟩, .inl rfl, by omega⟩
  · split at hb
    · simp only [List.mem_cons, List.not_mem_nil, or_false] at hb
      rcases hb with rfl | rfl
      · exact ⟨by simpa using kf, .inr rfl, by omega⟩
      · exact ⟨by simpa using tf, .inl rfl, by omega⟩
    · split at hb
      · simp only [List.mem_cons, List.mem_map] at hb
        rcases hb with rfl | ⟨b, hb, rfl⟩
        · exact ⟨by simpa using tf, .inr rfl, by omega⟩
        · exact ⟨by simpa using shunSuit_first hi hb, .inl rfl, by omega⟩
      · split at hb
        · simp only [List.mem_map] at hb
          obtain ⟨b, hb, rfl⟩ := hb
          exact ⟨by simpa using shunSuit_first hi hb, .inl rfl, by omega⟩
        · simp at hb

theorem SuitPath.first {f : Nat → Int} {i : Nat} {B : List Block} (h : SuitPath f i B) : ∀ b ∈ B, b.first := by
  induction h with
  | done => simp
  | skip _ _ _ ih => exact ih
  | step hi hb _ ih =>
    intro b hm
    rcases List.mem_append.1 hm with hm | hm
    · exact (suitBranches_first hi hb).1 b hm
    · exact ih b hm

theorem toSuit_ok {s : Nat} (hs : s < 3) {b : Block} (h : b.first) : (b.toSuit s).ok := by
  obtain ⟨h1, h2⟩ := h
  cases b <;> simp only [Block.valid, Block.start, decide_eq_true_eq] at h1 h2 <;>
    exact ⟨by simp only [Block.toSuit, Block.valid, decide_eq_true_eq]; omega, by simp only [Block.toSuit, Block.start]; omega⟩

theorem toSuit_uses (s : Nat) (b : Block) (j : Nat) : (b.toSuit s).uses (9 * s + j) = b.uses j := by
  cases b <;> simp only [Block.toSuit, Block.uses] <;> congr 1 <;> simp only [eq_iff_iff] <;> omega

theorem toSuit_uses_out {s : Nat} {b : Block} (h : b.first) {j : Nat} (hj : j < 9 * s ∨ 9 * s + 9 ≤ j) : (b.toSuit s).uses j = 0 := by
  obtain ⟨h1, h2⟩ := h
  cases b <;> simp only [Block.valid, Block.start, decide_eq_true_eq] at h1 h2 <;> simp only [Block.toSuit, Block.uses] <;>
    rw [if_neg (by omega)]

theorem first_uses {b : Block} (h : b.first) {j : Nat} (hj : 9 ≤ j) : b.uses j = 0 := by
  have := toSuit_uses_out (s := 0) h (.inr (by omega : 9 * 0 + 9 ≤ j))
  rw [← this, ← toSuit_uses 0 b j, Nat.mul_zero, Nat.zero_add]

theorem used_zero {B : List Block} {j : Nat} (h : ∀ b ∈ B, b.uses j = 0) : used B j = 0 := by
  induction B with
  | nil => rfl
  | cons b B ih => rw [used_cons, h b (by simp), ih (fun b hb => h b (by simp [hb]))]

theorem used_toSuit (s : Nat) (B : List Block) (j : Nat) : used (B.map (Block.toSuit s)) (9 * s + j) = used B j := by
  induction B with
  | nil => rfl
  | cons b B ih => rw [List.map_cons, used_cons, used_cons, ih, toSuit_uses]

/-- taking out blocks of suit `s` -/
theorem suitOf_same {s : Nat} (hs : s < 3) {q : Pos} (hl : q.hand.length = 37) {B : List Block} (hB : ∀ b ∈ B, b.first) :
    suitOf s (q.addAll (B.map (Block.toSuit s))).hand = fun j => suitOf s q.hand j - used B j := by
  funext j
  unfold suitOf
  split
  · rw [addAll_at hl (fun b hb => by
      obtain ⟨b', hb', rfl⟩ := List.mem_map.1 hb
      exact toSuit_ok hs (hB b' hb')), used_toSuit]
  · rw [used_zero (fun b hb => first_uses (hB b hb) (by omega))]
    rfl

theorem suitOf_other {s u : Nat} (hs : s < 3) (hu : u ≠ s) {q : Pos} (hl : q.hand.length = 37) {B : List Block}
    (hB : ∀ b ∈ B, b.first) : suitOf u (q.addAll (B.map (Block.toSuit s))).hand = suitOf u q.hand := by
  funext j
  unfold suitOf
  split
  · rw [addAll_at hl (fun b hb => by
      obtain ⟨b', hb', rfl⟩ := List.mem_map.1 hb
      exact toSuit_ok hs (hB b' hb'))]
    rw [used_zero (fun b hb => by
      obtain ⟨b', hb', rfl⟩ := List.mem_map.1 hb
      exact toSuit_uses_out (hB b' hb') (by omega))]
    simp
  · rfl

theorem nextIdx_eq {h : List Int} {i k : Nat} (hi : i ≤ k) (hk : k ≤ 27) (hz : ∀ j, i ≤ j → j < k → at37 h j = 0)
    (hne : k = 27 ∨ at37 h k ≠ 0) : nextIdx h i = k := by
  obtain ⟨n1, n2, n3, n4⟩ := nextIdx_spec h (idx := i) (by omega)
  rcases Nat.lt_trichotomy (nextIdx h i) k with hlt | he | hgt
  · exact absurd (hz _ n1 hlt) (n3 (by omega))
  · exact he
  · rcases hne with rfl | hne
    · omega
    · exact absurd (n4 k hi hgt) hne

theorem leaf_skip {i k : Nat} {q : Pos} (hi : i ≤ k) (hk : k ≤ 27) (hz : ∀ j, i ≤ j → j < k → at37 q.hand j = 0) (v : Int) :
    Leaf i q v ↔ Leaf k q v := by
  obtain ⟨n1, n2, n3, n4⟩ := nextIdx_spec q.hand (idx := k) hk
  have e : nextIdx q.hand i = nextIdx q.hand k := nextIdx_eq (by omega) n2 (fun j h1 h2 => by
    by_cases hj : j < k
    · exact hz j h1 hj
    · exact n4 j (by omega) h2) (by
    by_cases h : nextIdx q.hand k = 27
    · exact .inl h
    · exact .inr (n3 h))
  by_cases h : nextIdx q.hand k = 27
  · rw [leaf_done_iff h, leaf_done_iff (e.trans h)]
  · rw [leaf_iff h, leaf_iff (by rw [e]; exact h), e]

theorem SuitPath.skips {f : Nat → Int} {B : List Block} {i k : Nat} (hi : i ≤ k) (hk : k ≤ 9) (hz : ∀ j, i ≤ j → j < k → f j = 0)
    (h : SuitPath f k B) : SuitPath f i B := by
  obtain ⟨n, rfl⟩ := Nat.exists_eq_add_of_le hi
  clear hi
  induction n generalizing i with
  | zero => exact h
  | succ n ih =>
    refine .skip (by omega) (hz i (Nat.le_refl _) (by omega)) (ih (i := i + 1) (by omega) (fun j h1 h2 => hz j (by omega) (by omega)) ?_)
    rw [show i + 1 + n = i + (n + 1) by omega]
    exact h

/-- an end of the search: first a path through suit `s`, then an end of the search in the following suits -/
theorem leaf_suit {s : Nat} (hs : s < 3) {i : Nat} (hi : i ≤ 9) {q : Pos} (hl : q.hand.length = 37) {v : Int} :
    Leaf (9 * s + i) q v ↔ ∃ B, SuitPath (suitOf s q.hand) i B ∧ Leaf (9 * s + 9) (q.addAll (B.map (Block.toSuit s))) v := by
  have hz : ∀ {h : List Int} {i k : Nat}, k ≤ 9 → (∀ j, 9 * s + i ≤ j → j < 9 * s + k → at37 h j = 0) →
      ∀ j, i ≤ j → j < k → suitOf s h j = 0 := by
    intro h i k hk hh j h1 h2
    rw [suitOf, if_pos (by omega)]
    exact hh _ (by omega) (by omega)
  constructor
  · intro h
    generalize hidx : 9 * s + i = idx at h
    induction h generalizing i with
    | @done idx q h =>
      subst hidx
      obtain ⟨n1, n2, n3, n4⟩ := nextIdx_spec q.hand (idx := 9 * s + i) (by omega)
      refine ⟨[], .skips hi (Nat.le_refl _) (hz (Nat.le_refl _) (fun j h1 h2 => n4 j h1 (by omega))) .done, ?_⟩
      exact (leaf_skip (by omega) (by omega) (fun j h1 h2 => n4 j h1 (by omega)) _).1 (.done h)
    | @step idx q v br h hb hlf ih =>
      subst hidx
      obtain ⟨n1, n2, n3, n4⟩ := nextIdx_spec q.hand (idx := 9 * s + i) (by omega)
      by_cases hn : nextIdx q.hand (9 * s + i) < 9 * s + 9
      · obtain ⟨k, hk⟩ := Nat.exists_eq_add_of_le (show 9 * s ≤ nextIdx q.hand (9 * s + i) by omega)
        rw [hk] at hb n1 n4 hn
        rw [branches_suit s q.hand (by omega)] at hb
        obtain ⟨br', hb', rfl⟩ := List.mem_map.1 hb
        obtain ⟨f1, f2, _⟩ := suitBranches_first (by omega) hb'
        obtain ⟨B, p1, p2⟩ := ih (i := br'.2) (by omega) (by rw [addAll_length, hl]) rfl
        rw [suitOf_same hs hl f1] at p1
        refine ⟨br'.1 ++ B, .skips (by omega) (by omega) (hz (by omega) n4) (.step (by omega) hb' p1), ?_⟩
        rw [List.map_append, addAll_append]
        exact p2
      · refine ⟨[], .skips hi (Nat.le_refl _) (hz (Nat.le_refl _) (fun j h1 h2 => n4 j h1 (by omega))) .done, ?_⟩
        exact (leaf_skip (by omega) (by omega) (fun j h1 h2 => n4 j h1 (by omega)) _).1 (.step h hb hlf)
  · rintro ⟨B, hp, h⟩
    generalize hf : suitOf s q.hand = f at hp
    induction hp generalizing q with
    | done => exact h
    | @skip f i B hi' h0 hp ih =>
      have := ih (by omega) hl h hf
      refine (leaf_skip (k := 9 * s + (i + 1)) (by omega) (by omega) (fun j h1 h2 => ?_) v).2 this
      rw [← hf, suitOf, if_pos hi'] at h0
      rw [show j = 9 * s + i by omega]
      exact h0
    | @step f i B br hi' hb hp ih =>
      obtain ⟨f1, f2, f3⟩ := suitBranches_first hi' hb
      rw [List.map_append, addAll_append] at h
      have := ih (q := q.addAll (br.1.map (Block.toSuit s))) (by omega) (by rw [addAll_length, hl]) h
        (by rw [suitOf_same hs hl f1, hf])
      rw [← hf, suitOf, if_pos hi'] at f3
      have hn : nextIdx q.hand (9 * s + i) = 9 * s + i := nextIdx_eq (Nat.le_refl _) (by omega) (fun j h1 h2 => by omega) (.inr f3)
      refine .step (by rw [hn]; omega) (br := (br.1.map (Block.toSuit s), 9 * s + br.2)) ?_ this
      rw [hn, branches_suit s q.hand hi']
      exact List.mem_map.2 ⟨br, by rw [hf]; exact hb, rfl⟩

theorem counts_toSuit (s : Nat) (B : List Block) : sets (B.map (Block.toSuit s)) = sets B ∧
    taatsus (B.map (Block.toSuit s)) = taatsus B ∧ toitsus (B.map (Block.toSuit s)) = toitsus B ∧
    markeds (B.map (Block.toSuit s)) = markeds B := by
  unfold sets taatsus toitsus markeds
  simp only [List.countP_map]
  refine ⟨?_, ?_, ?_, ?_⟩ <;> congr 1 <;> funext b <;> rcases b with i | i | i | ⟨i, w⟩ | ⟨i, m⟩ <;> (try cases m) <;> rfl

/-- the ends of the search: one path through each suit -/
theorem leaf_suits {q : Pos} (hl : q.hand.length = 37) {v : Int} :
    Leaf 0 q v ↔ ∃ B : Nat → List Block, (∀ s < 3, SuitPath (suitOf s q.hand) 0 (B s)) ∧
      v = distance (q.m + (sets (B 0) + sets (B 1) + sets (B 2) : Nat)) (q.t + (taatsus (B 0) + taatsus (B 1) + taatsus (B 2) : Nat))
        (q.p + (toitsus (B 0) + toitsus (B 1) + toitsus (B 2) : Nat))
        (decide (q.tune + (markeds (B 0) + markeds (B 1) + markeds (B 2) : Nat) ≠ 0)) := by
  have val : ∀ B0 B1 B2 : List Block, (((q.addAll (B0.map (Block.toSuit 0))).addAll (B1.map (Block.toSuit 1))).addAll
      (B2.map (Block.toSuit 2))).value =
      distance (q.m + (sets B0 + sets B1 + sets B2 : Nat)) (q.t + (taatsus B0 + taatsus B1 + taatsus B2 : Nat))
        (q.p + (toitsus B0 + toitsus B1 + toitsus B2 : Nat)) (decide (q.tune + (markeds B0 + markeds B1 + markeds B2 : Nat) ≠ 0)) := by
    intro B0 B1 B2
    unfold Pos.value
    simp only [addAll_counts, counts_toSuit]
    push_cast
    simp only [Int.add_assoc]
  have len : ∀ (A : List Block) (q : Pos), q.hand.length = 37 → (q.addAll A).hand.length = 37 := fun A q h => by
    rw [addAll_length, h]
  rw [show (0 : Nat) = 9 * 0 + 0 from rfl, leaf_suit (by omega) (by omega) hl]
  constructor
  · rintro ⟨B0, p0, h⟩
    rw [show 9 * 0 + 9 = 9 * 1 + 0 from rfl, leaf_suit (by omega) (by omega) (len _ _ hl)] at h
    obtain ⟨B1, p1, h⟩ := h
    rw [show 9 * 1 + 9 = 9 * 2 + 0 from rfl, leaf_suit (by omega) (by omega) (len _ _ (len _ _ hl))] at h
    obtain ⟨B2, p2, h⟩ := h
    rw [suitOf_other (by omega) (by omega) hl p0.first] at p1
    rw [suitOf_other (by omega) (by omega) (len _ _ hl) p1.first, suitOf_other (by omega) (by omega) hl p0.first] at p2
    refine ⟨fun s => if s = 0 then B0 else if s = 1 then B1 else B2, ?_, ?_⟩
    · intro s hs
      rcases (by omega : s = 0 ∨ s = 1 ∨ s = 2) with rfl | rfl | rfl
      · exact p0
      · exact p1
      · exact p2
    · rw [leaf_done_iff (nextIdx_eq (by omega) (by omega) (fun j h1 h2 => by omega) (.inl rfl)), val] at h
      exact h
  · rintro ⟨B, hp, rfl⟩
    have p0 := hp 0 (by omega)
    have p1 := hp 1 (by omega)
    have p2 := hp 2 (by omega)
    refine ⟨B 0, p0, ?_⟩
    rw [show 9 * 0 + 9 = 9 * 1 + 0 from rfl, leaf_suit (by omega) (by omega) (len _ _ hl)]
    refine ⟨B 1, by rw [suitOf_other (by omega) (by omega) hl p0.first]; exact p1, ?_⟩
    rw [show 9 * 1 + 9 = 9 * 2 + 0 from rfl, leaf_suit (by omega) (by omega) (len _ _ (len _ _ hl))]
    refine ⟨B 2, by rw [suitOf_other (by omega) (by omega) (len _ _ hl) p1.first, suitOf_other (by omega) (by omega) hl p0.first]; exact p2, ?_⟩
    rw [leaf_done_iff (nextIdx_eq (by omega) (by omega) (fun j h1 h2 => by omega) (.inl rfl)), val]

end MJ
