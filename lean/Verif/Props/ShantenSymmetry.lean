import Verif.Proofs.ShantenSuits
import Verif.Props.ShantenMinimal
import Mathlib.Data.List.Perm.Subperm
import Mathlib.Data.List.Nodup
import Mathlib.Algebra.BigOperators.Group.List.Basic
/-!
C135: the shanten value treats the suits alike.  C136: and it should treat a hand and its mirror image alike.
-/
namespace MJ
open Spec

/-- `h'` is `h` with suit `s` moved to suit `π s`, and the honours exchanged by `ρ` -/
structure Recoloured (π ρ : Nat → Nat) (h h' : List Int) : Prop where
  len : h.length = 37
  len' : h'.length = 37
  suits : (List.range 3).Perm ((List.range 3).map π)
  honours : (List.range 7).Perm ((List.range 7).map ρ)
  suit : ∀ s < 3, ∀ j < 9, at37 h' (9 * π s + j) = at37 h (9 * s + j)
  honour : ∀ k < 7, at37 h' (27 + ρ k) = at37 h (27 + k)
  red : ∀ k, 34 ≤ k → at37 h' k = at37 h k

theorem range37 : List.range 37 = ((List.range 3).flatMap (fun s => (List.range 9).map (fun j => 9 * s + j))) ++
    ((List.range 7).map (fun k => 27 + k) ++ [34, 35, 36]) := by decide

variable {π ρ : Nat → Nat} {h h' : List Int}

theorem Recoloured.lt (r : Recoloured π ρ h h') {s : Nat} (hs : s < 3) : π s < 3 :=
  List.mem_range.1 (r.suits.mem_iff.2 (List.mem_map.2 ⟨s, List.mem_range.2 hs, rfl⟩))

/-- a function of kind and number of tiles that does not see colours: its values are the same ones -/
theorem Recoloured.perm {α : Type} (r : Recoloured π ρ h h') (g : Nat → Int → α)
    (gs : ∀ s < 3, ∀ u < 3, ∀ j < 9, ∀ x, g (9 * s + j) x = g (9 * u + j) x)
    (gh : ∀ k < 7, ∀ l < 7, ∀ x, g (27 + k) x = g (27 + l) x) :
    ((List.range 37).map (fun j => g j (at37 h j))).Perm ((List.range 37).map (fun j => g j (at37 h' j))) := by
  rw [range37]
  simp only [List.map_append, List.map_flatMap, List.map_map]
  refine List.Perm.append ?_ (List.Perm.append ?_ ?_)
  · refine ((r.suits.flatMap_right _).trans ?_).symm
    rw [List.flatMap_map]
    refine List.Perm.of_eq ?_
    simp only [List.flatMap]
    refine congrArg List.flatten (List.map_congr_left (fun s hs => List.map_congr_left (fun j hj => ?_)))
    simp only [List.mem_range] at hs hj
    simp only [Function.comp_apply]
    rw [gs _ (r.lt hs) s hs j hj, r.suit s hs j hj]
  · refine ((r.honours.map _).trans ?_).symm
    rw [List.map_map]
    refine List.Perm.of_eq (List.map_congr_left (fun k hk => ?_))
    simp only [List.mem_range] at hk
    simp only [Function.comp_apply]
    rw [r.honour k hk]
    exact gh _ (List.mem_range.1 (r.honours.mem_iff.2 (List.mem_map.2 ⟨k, List.mem_range.2 hk, rfl⟩))) k hk _
  · simp only [List.map_cons, List.map_nil, r.red 34 (by omega), r.red 35 (by omega), r.red 36 (by omega)]
    exact List.Perm.refl _

theorem Recoloured.hand (r : Recoloured π ρ h h') : h.Perm h' := by
  have := r.perm (fun _ x => x) (fun _ _ _ _ _ _ _ => rfl) (fun _ _ _ _ _ => rfl)
  rw [← r.len, ← list_eq_range, r.len, ← r.len', ← list_eq_range] at this
  exact this

theorem Recoloured.drop (r : Recoloured π ρ h h') : (h.drop 27).Perm (h'.drop 27) := by
  have e : ∀ l : List Int, l.length = 37 → l.drop 27 = (List.range 7).map (fun k => at37 l (27 + k)) ++ [at37 l 34, at37 l 35, at37 l 36] := by
    intro l hl
    rw [drop27 hl]
    rfl
  rw [e h r.len, e h' r.len', r.red 34 (by omega), r.red 35 (by omega), r.red 36 (by omega)]
  refine List.Perm.append_right _ ?_
  refine ((r.honours.map (fun k => at37 h' (27 + k))).trans ?_).symm
  rw [List.map_map]
  exact List.Perm.of_eq (List.map_congr_left (fun k hk => r.honour k (List.mem_range.1 hk)))

theorem Recoloured.countIf (r : Recoloured π ρ h h') (p : Int → Bool) : countIf p (h.drop 27) = countIf p (h'.drop 27) := by
  unfold MJ.countIf
  rw [(r.drop.filter p).length_eq]

theorem Recoloured.pos (r : Recoloured π ρ h h') : (Solver.init h').pos = { (Solver.init h).pos with hand := h' } := by
  simp only [Solver.pos, Solver.init, ← r.countIf, r.hand.sum_eq]

/-- three numbers in another order -/
theorem sum_perm (r : Recoloured π ρ h h') (g : Nat → Nat) : g (π 0) + g (π 1) + g (π 2) = g 0 + g 1 + g 2 := by
  have := (r.suits.map g).sum_eq
  simp only [show List.range 3 = [0, 1, 2] from rfl, List.map_cons, List.map_nil, List.sum_cons, List.sum_nil] at this
  omega

theorem Recoloured.inv (r : Recoloured π ρ h h') : ∃ u : Nat → Nat, (∀ s < 3, u s < 3 ∧ π (u s) = s) := by
  have : ∀ s, ∃ t, s < 3 → t < 3 ∧ π t = s := by
    intro s
    by_cases hs : s < 3
    · obtain ⟨t, ht, e⟩ := List.mem_map.1 (r.suits.mem_iff.1 (List.mem_range.2 hs))
      exact ⟨t, fun _ => ⟨List.mem_range.1 ht, e⟩⟩
    · exact ⟨0, fun h => absurd h hs⟩
  exact ⟨fun s => (this s).choose, fun s hs => (this s).choose_spec hs⟩

theorem Recoloured.suitOf (r : Recoloured π ρ h h') {s : Nat} (hs : s < 3) : suitOf (π s) h' = suitOf s h := by
  funext j
  unfold MJ.suitOf
  split
  · exact r.suit s hs j ‹_›
  · rfl

theorem Recoloured.leaf (r : Recoloured π ρ h h') {v : Int} (hv : Leaf 0 (Solver.init h').pos v) : Leaf 0 (Solver.init h).pos v := by
  rw [r.pos] at hv
  rw [leaf_suits r.len'] at hv
  rw [leaf_suits (show (Solver.init h).pos.hand.length = 37 from r.len)]
  obtain ⟨B, hB, hv⟩ := hv
  refine ⟨fun s => B (π s), fun s hs => ?_, ?_⟩
  · have := hB (π s) (r.lt hs)
    rw [r.suitOf hs] at this
    exact this
  · rw [hv]
    simp only [sum_perm r (fun s => sets (B s)), sum_perm r (fun s => taatsus (B s)), sum_perm r (fun s => toitsus (B s)),
      sum_perm r (fun s => markeds (B s))]

theorem Recoloured.symm (r : Recoloured π ρ h h') : ∃ π' ρ', Recoloured π' ρ' h' h := by
  obtain ⟨u, hu⟩ := r.inv
  have hw : ∃ w : Nat → Nat, (∀ s < 7, w s < 7 ∧ ρ (w s) = s) := by
    have : ∀ s, ∃ t, s < 7 → t < 7 ∧ ρ t = s := by
      intro s
      by_cases hs : s < 7
      · obtain ⟨t, ht, e⟩ := List.mem_map.1 (r.honours.mem_iff.1 (List.mem_range.2 hs))
        exact ⟨t, fun _ => ⟨List.mem_range.1 ht, e⟩⟩
      · exact ⟨0, fun h => absurd h hs⟩
    exact ⟨fun s => (this s).choose, fun s hs => (this s).choose_spec hs⟩
  obtain ⟨w, hw⟩ := hw
  have perm : ∀ (n : Nat) (f g : Nat → Nat), (∀ s < n, g s < n ∧ f (g s) = s) → (List.range n).Perm ((List.range n).map g) := by
    intro n f g hg
    have hnd : ((List.range n).map g).Nodup := by
      refine List.Nodup.map_on ?_ List.nodup_range
      intro a ha b hb e
      rw [← (hg a (List.mem_range.1 ha)).2, e, (hg b (List.mem_range.1 hb)).2]
    refine ((List.subperm_of_subset hnd ?_).perm_of_length_le (by simp)).symm
    intro x hx
    obtain ⟨s, hs, rfl⟩ := List.mem_map.1 hx
    exact List.mem_range.2 (hg s (List.mem_range.1 hs)).1
  refine ⟨u, w, r.len', r.len, perm 3 π u hu, perm 7 ρ w hw, ?_, ?_, fun k hk => (r.red k hk).symm⟩
  · intro s hs j hj
    have := r.suit (u s) (hu s hs).1 j hj
    rw [(hu s hs).2] at this
    exact this.symm
  · intro k hk
    have := r.honour (w k) (hw k hk).1
    rw [(hw k hk).2] at this
    exact this.symm

/-- C135: exchanging suits, and exchanging honours, does not change the value of the normal search, for every array. -/
theorem C135_normal (r : Recoloured π ρ h h') : normalValue h' = normalValue h := by
  have key : ∀ {π ρ : Nat → Nat} {h h' : List Int}, Recoloured π ρ h h' → normalValue h ≤ normalValue h' := by
    intro π ρ h h' r
    rcases normalValue_attained h' with e | e
    · rw [e]
      obtain ⟨s', _, h2, h3⟩ := normalValue_acc h
      rw [← h2]
      exact h3.le
    · exact normalValue_le (r.leaf e)
  obtain ⟨π', ρ', r'⟩ := r.symm
  exact Int.le_antisymm (key r') (key r)

theorem maxOf_perm {l l' : List Int} (hne : l ≠ []) (hp : l.Perm l') : maxOf l = maxOf l' := by
  have hne' : l' ≠ [] := fun e => hne (by rw [e] at hp; exact hp.eq_nil)
  obtain ⟨a1, a2⟩ := maxOf_spec hne
  obtain ⟨b1, b2⟩ := maxOf_spec hne'
  exact Int.le_antisymm (b2 _ (hp.mem_iff.1 a1)) (a2 _ (hp.mem_iff.2 b1))

/-- C135: exchanging suits, and exchanging honours, does not change the result of `solve`, for every array. -/
theorem C135_solve (r : Recoloured π ρ h h') (fuel : Nat) (hf : depth h 0 < fuel) (hf' : depth h' 0 < fuel) :
    ((Solver.init h').solve fuel).map (·.1) = ((Solver.init h).solve fuel).map (·.1) := by
  unfold Solver.solve
  rw [normalValue_fuel h hf, normalValue_fuel h' hf', C135_normal r]
  have e1 : MJ.countIf (fun x => decide (2 ≤ x)) h = MJ.countIf (fun x => decide (2 ≤ x)) h' := by
    unfold MJ.countIf
    rw [(r.hand.filter _).length_eq]
  have e2 : (List.zipWith (· * ·) h yaochuTensor).Perm (List.zipWith (· * ·) h' yaochuTensor) := by
    rw [yaochu_arr r.len, yaochu_arr r.len']
    refine r.perm (fun j x => x * if j ∈ yaochuIdx then 1 else 0) ?_ ?_
    · intro s hs u hu j hj x
      have : ∀ s ∈ List.range 3, ∀ u ∈ List.range 3, ∀ j ∈ List.range 9,
          decide (9 * s + j ∈ yaochuIdx) = decide (9 * u + j ∈ yaochuIdx) := by decide
      have := this s (List.mem_range.2 hs) u (List.mem_range.2 hu) j (List.mem_range.2 hj)
      simp only [decide_eq_decide] at this
      simp only [this]
    · intro k hk l hl x
      have : ∀ k ∈ List.range 7, decide (27 + k ∈ yaochuIdx) = true := by decide
      have h1 := this k (List.mem_range.2 hk)
      have h2 := this l (List.mem_range.2 hl)
      simp only [decide_eq_true_eq] at h1 h2
      simp only [h1, h2]
  have e3 : MJ.countIf (fun x => decide (1 ≤ x)) (List.zipWith (· * ·) h yaochuTensor) =
      MJ.countIf (fun x => decide (1 ≤ x)) (List.zipWith (· * ·) h' yaochuTensor) := by
    unfold MJ.countIf
    rw [(e2.filter _).length_eq]
  have e4 := maxOf_perm (by
    rw [yaochu_arr r.len]
    simp) e2
  simp only [Option.bind_eq_bind, Option.bind_some, Option.map_some, Solver.chitoitsu, Solver.kokushi, Solver.init, e1, e3, e4]

theorem at37_out {h : List Int} {k : Nat} (hk : h.length ≤ k) : at37 h k = 0 := by
  unfold at37
  rw [List.getD_eq_getElem?_getD, List.getElem?_eq_none hk]
  rfl

/-- a hand, and the same with the first suit moved to the second, the second to the third and the third to the first -/
example : Recoloured (fun s => (s + 1) % 3) id
    (handOf [1, 1, 1, 0, 0, 0, 0, 0, 0] [0, 0, 2, 0, 0, 0, 0, 0, 0] [0, 3, 0, 0, 0, 0, 0, 0, 0] [0, 0, 2, 0, 0, 0, 1])
    (handOf [0, 3, 0, 0, 0, 0, 0, 0, 0] [1, 1, 1, 0, 0, 0, 0, 0, 0] [0, 0, 2, 0, 0, 0, 0, 0, 0] [0, 0, 2, 0, 0, 0, 1]) where
  len := rfl
  len' := rfl
  suits := by decide
  honours := by decide
  suit := by decide
  honour := by decide
  red := by
    intro k hk
    by_cases h : k < 37
    · rcases (by omega : k = 34 ∨ k = 35 ∨ k = 36) with rfl | rfl | rfl <;> rfl
    · rw [at37_out (by simp [handOf]; omega), at37_out (by simp [handOf]; omega)]

/-! ### C136 -/

/-- the kind that is as far from the nine as `j` is from the one -/
def flip (j : Nat) : Nat := if j < 27 then 9 * (j / 9) + (8 - j % 9) else j

/-- the mirror image of a block -/
def Spec.Block.flip : Block → Block
  | .koutsu i => .koutsu (MJ.flip i)
  | .shuntsu i => .shuntsu (MJ.flip (i + 2))
  | .toitsu i => .toitsu (MJ.flip i)
  | .taatsu i w => .taatsu (MJ.flip (if w = 1 then i + 2 else i + 1)) w
  | .single i m => .single (MJ.flip i) m

theorem flip_valid {b : Block} (hb : b.valid = true) : b.flip.valid = true := by
  cases b <;> simp only [Block.valid, Block.flip, flip, decide_eq_true_eq] at hb ⊢ <;> (repeat' split) <;> omega

theorem flip_uses {b : Block} (hb : b.valid = true) (j : Nat) : b.flip.uses (flip j) = b.uses j := by
  cases b <;> simp only [Block.valid, decide_eq_true_eq] at hb <;> simp only [Block.flip, Block.uses, flip] <;>
    refine if_congr ?_ rfl rfl <;> (repeat' split) <;> constructor <;> intro <;> omega

theorem flip_flip (j : Nat) : flip (flip j) = j := by
  unfold flip
  (repeat' split) <;> omega

theorem used_flip {B : List Block} (hB : ∀ b ∈ B, b.valid = true) (j : Nat) : used (B.map Block.flip) (flip j) = used B j := by
  induction B with
  | nil => rfl
  | cons b B ih =>
    rw [List.map_cons, used_cons, used_cons, ih (fun b hb => hB b (by simp [hb])), flip_uses (hB b (by simp))]

theorem counts_flip (B : List Block) : sets (B.map Block.flip) = sets B ∧ taatsus (B.map Block.flip) = taatsus B ∧
    toitsus (B.map Block.flip) = toitsus B := by
  unfold sets taatsus toitsus
  simp only [List.countP_map]
  refine ⟨?_, ?_, ?_⟩ <;> congr 1 <;> funext b <;> cases b <;> rfl

/-- `h'` is the mirror image of `h`: ones and nines, twos and eights, ... exchanged -/
def Mirror (h h' : List Int) : Prop := ∀ j, at37 h' (flip j) = at37 h j

theorem Mirror.symm {h h' : List Int} (m : Mirror h h') : Mirror h' h := by
  intro j
  have := m (flip j)
  rw [flip_flip] at this
  exact this.symm

/-- C136: the value of a hand is not always that of its mirror image. -/
theorem C136_mirror_violated : ∃ h h', LegalHand h ∧ LegalHand h' ∧ h.sum = 14 ∧ Mirror h h' ∧ normalValue h = 1 ∧ normalValue h' = 0 := by
  refine ⟨handOf [3, 2, 2, 0, 0, 0, 0, 0, 0] [0, 0, 0, 0, 2, 0, 0, 3, 0] [0, 0, 0, 1, 0, 1, 0, 0, 0] [0, 0, 0, 0, 0, 0, 0],
    handOf [0, 0, 0, 0, 0, 0, 2, 2, 3] [0, 3, 0, 0, 2, 0, 0, 0, 0] [0, 0, 0, 1, 0, 1, 0, 0, 0] [0, 0, 0, 0, 0, 0, 0],
    legalHand_of (by decide), legalHand_of (by decide), by decide, ?_, by decide +kernel, by decide +kernel⟩
  intro j
  by_cases hj : j < 37
  · revert hj
    revert j
    decide
  · have e : flip j = j := by unfold flip; rw [if_neg (by omega)]
    rw [e, at37_out (by simp [handOf]; omega), at37_out (by simp [handOf]; omega)]

/-- C136: the two values differ by at most one, and the value of a hand without the pattern (three of a kind beside two of each
of the next two kinds) is at most that of its mirror image; so they are equal if neither has the pattern. -/
theorem C136_mirror_partial {h h' : List Int} (hl : LegalHand h) (hl' : LegalHand h') (hs : h.sum ≤ 14) (he : h'.sum = h.sum)
    (m : Mirror h h') : normalValue h ≤ normalValue h' + 1 ∧ normalValue h' ≤ normalValue h + 1 ∧
    (NoPattern h → normalValue h ≤ normalValue h') ∧ (NoPattern h' → normalValue h' ≤ normalValue h) := by
  have key : ∀ {h h' : List Int}, LegalHand h → LegalHand h' → h.sum ≤ 14 → h'.sum = h.sum → Mirror h h' →
      normalValue h ≤ normalValue h' + 1 ∧ (NoPattern h → normalValue h ≤ normalValue h') := by
    intro h h' hl hl' hs he m
    obtain ⟨B, b1, b2, b3⟩ := C78_decomposition hl'.toRedHand (by omega)
    obtain ⟨c1, c2, c3⟩ := counts_flip B
    have hn := C91_near_partial hl hs (A := B.map Block.flip) (fun b hb => by
      obtain ⟨b', hb', rfl⟩ := List.mem_map.1 hb
      exact flip_valid (b1 b' hb')) (fun j hj => by
      have hj' : flip j < 34 := by unfold flip; split <;> omega
      have := b2 (flip j) hj'
      rw [m j, ← used_flip b1, flip_flip] at this
      exact this)
    have := distance_unmarked ((14 - h'.sum) / 3 + sets B) (taatsus B) (toitsus B) (decide (markeds B ≠ 0))
    rw [c1, c2, c3] at hn
    rw [he] at b3 this
    refine ⟨by omega, fun hp => ?_⟩
    have := hn.2 hp
    omega
  have k1 := key hl hl' hs he m
  have k2 := key hl' hl (by omega) he.symm m.symm
  exact ⟨k1.1, k2.1, k1.2, k2.2⟩

end MJ
