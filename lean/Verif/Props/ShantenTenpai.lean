import Verif.Props.Shanten
/-!
Hands one tile from complete.
-/
namespace MJ
open Spec

/-- the hand with one more tile of kind `x` -/
def drawn (h : List Int) (x : Nat) (j : Nat) : Int := at37 h j + if j = x then 1 else 0

theorem cons_set {B : List Block} {b : Block} (hb : b.valid = true ∧ b.isSet = true)
    (hB : ∀ b ∈ B, b.valid = true ∧ b.isSet = true) : ∀ c ∈ b :: B, c.valid = true ∧ c.isSet = true := by
  intro c hc
  rcases List.mem_cons.1 hc with rfl | hc
  · exact hb
  · exact hB c hc

/-- a partial run is completed by some tile -/
theorem taatsu_completes {i w : Nat} (hv : (Block.taatsu i w).valid = true) :
    ∃ x s, x < 34 ∧ (Block.shuntsu s).valid = true ∧
      ∀ j, (Block.shuntsu s).uses j = (Block.taatsu i w).uses j + if j = x then 1 else 0 := by
  simp only [Block.valid, decide_eq_true_eq] at hv
  rcases hv with ⟨h, ⟨rfl, h'⟩ | ⟨rfl, h'⟩⟩
  · refine ⟨i + 1, i, by omega, by simp [Block.valid]; omega, fun j => ?_⟩
    simp only [Block.uses]
    (repeat' split) <;> omega
  · by_cases c : i % 9 < 7
    · refine ⟨i + 2, i, by omega, by simp [Block.valid]; omega, fun j => ?_⟩
      simp only [Block.uses]
      (repeat' split) <;> omega
    · refine ⟨i - 1, i - 1, by omega, by simp [Block.valid]; omega, fun j => ?_⟩
      simp only [Block.uses]
      (repeat' split) <;> omega

/-- a set without one of its tiles -/
theorem set_minus {b : Block} (hv : b.valid = true) (hs : b.isSet = true) {x : Nat} (hx : 1 ≤ b.uses x) :
    ∃ b' : Block, b'.valid = true ∧ (b'.isTaatsu = true ∨ b'.isToitsu = true) ∧ b'.isMarked = false ∧
      ∀ j, b.uses j = b'.uses j + if j = x then 1 else 0 := by
  rcases b with i | i | i | ⟨i, w⟩ | ⟨i, m⟩ <;> simp [Block.isSet] at hs
  · simp only [Block.uses] at hx
    have e : x = i := by split at hx <;> omega
    subst e
    refine ⟨.toitsu x, hv, .inr rfl, rfl, fun j => ?_⟩
    simp only [Block.uses]
    (repeat' split) <;> omega
  · simp only [Block.uses] at hx
    simp only [Block.valid, decide_eq_true_eq] at hv
    have e : x = i ∨ x = i + 1 ∨ x = i + 2 := by split at hx <;> omega
    rcases e with rfl | rfl | rfl
    · refine ⟨.taatsu (x + 1) 2, by simp [Block.valid]; omega, .inl rfl, rfl, fun j => ?_⟩
      simp only [Block.uses]
      (repeat' split) <;> omega
    · refine ⟨.taatsu i 1, by simp [Block.valid]; omega, .inl rfl, rfl, fun j => ?_⟩
      simp only [Block.uses]
      (repeat' split) <;> omega
    · refine ⟨.taatsu i 2, by simp [Block.valid]; omega, .inl rfl, rfl, fun j => ?_⟩
      simp only [Block.uses]
      (repeat' split) <;> omega

/-- a hand of 3k+1 tiles has value 0 exactly if one more tile (a fifth one of a kind included) can complete it, and
never less -/
theorem C88_tenpai {h : List Int} (hl : LegalHand h) {k : Nat} (hs : h.sum = 3 * k + 1) (hk : k ≤ 4) :
    (normalValue h = 0 ↔ ∃ x < 34, Complete k (drawn h x)) ∧ 0 ≤ normalValue h := by
  have hdiv : (14 - h.sum) / 3 = 4 - (k : Int) := by rw [hs]; omega
  have lower : 0 ≤ normalValue h ∧ (normalValue h = 0 → ∃ x < 34, Complete k (drawn h x)) := by
    obtain ⟨A, a1, a2, a3⟩ := C78_decomposition hl.toRedHand (by rw [hs]; omega)
    have hlo := left_over (h := h) a1
    rw [← sum_legal hl] at hlo
    have hnn : ∀ x ∈ List.range 34, 0 ≤ at37 h x - used A x := by
      intro x hx
      have := a2 x (by simpa using hx)
      omega
    have hge := sum_nonneg hnn
    rw [hlo, hs] at hge
    rw [hdiv] at a3
    have key : 0 ≤ normalValue h ∧ (normalValue h = 0 →
        (sets A = k ∧ taatsus A = 0 ∧ toitsus A = 0 ∧ singles A ≤ 1) ∨
        (sets A + 1 = k ∧ taatsus A = 1 ∧ toitsus A = 1 ∧ singles A = 0) ∨
        (sets A + 1 = k ∧ taatsus A = 0 ∧ toitsus A = 2 ∧ singles A = 0)) := by
      rw [a3]
      unfold distance
      generalize sets A = s at *
      generalize taatsus A = t at *
      generalize toitsus A = p at *
      generalize singles A = g at *
      clear a1 a2 a3 hlo hnn
      constructor
      · split <;> omega
      · split <;> omega
    refine ⟨key.1, fun hv => ?_⟩
    rcases key.2 hv with ⟨k1, k2, k3, k4⟩ | ⟨k1, k2, k3, k4⟩ | ⟨k1, k2, k3, k4⟩
    · by_cases g : singles A = 0
      · -- one tile is not used
        obtain ⟨y, y1, y2, y3⟩ := one_left (List.nodup_range) hnn (by rw [hlo, hs, k1, k2, k3, g]; omega)
        have hy : y < 34 := by simpa using y1
        have hset := isSet_of_counts (A := A) k2 k3 g
        refine ⟨y, hy, A, y, fun b hb => ⟨a1 b hb, hset b hb⟩, ?_, hy, fun j hj => ?_⟩
        · rw [← sets_eq_length hset]; exact k1
        · unfold drawn
          rw [used_cons]
          simp only [Block.uses]
          by_cases e : j = y
          · subst e
            rw [if_pos rfl, if_pos rfl]
            omega
          · rw [if_neg e, if_neg e]
            have := y3 j (by simpa using hj) e
            omega
      · -- one tile is a single block
        obtain ⟨b, hb, hbt⟩ := exists_of_countP (A := A) (p := Block.isSingle) g
        obtain ⟨A', e⟩ := perm_cons_of_mem hb
        obtain ⟨e1, e2, e3, e4⟩ := counts_perm e
        rcases b with i | i | i | ⟨i, w⟩ | ⟨i, m⟩ <;> simp [Block.isSingle] at hbt
        obtain ⟨c1, c2, c3, c4⟩ := counts_cons (.single i m) A'
        simp only [Block.isSet, Block.isTaatsu, Block.isToitsu, Block.isSingle, Bool.false_eq_true, if_false, if_true] at c1 c2 c3 c4
        have hset := isSet_of_counts (A := A') (by omega) (by omega) (by omega)
        have hz := all_zero hnn (by rw [hlo, hs, k1, k2, k3]; omega)
        have hi := a1 _ (e.mem_iff.2 (List.mem_cons_self))
        simp only [Block.valid, decide_eq_true_eq] at hi
        refine ⟨i, hi, A', i, fun b hb => ⟨a1 b (e.mem_iff.2 (by simp [hb])), hset b hb⟩, ?_, hi, fun j hj => ?_⟩
        · rw [← sets_eq_length hset]; omega
        · unfold drawn
          have := hz j (by simpa using hj)
          have u1 : (Block.single i m).uses j = if j = i then 1 else 0 := rfl
          have u2 : (Block.toitsu i).uses j = if j = i then 2 else 0 := rfl
          rw [used_perm e, used_cons, u1] at this
          rw [used_cons, u2]
          by_cases c : j = i
          · rw [if_pos c] at this
            rw [if_pos c, if_pos c]
            omega
          · rw [if_neg c] at this
            rw [if_neg c, if_neg c]
            omega
    · -- a partial run and a pair
      obtain ⟨b, hb, hbt⟩ := exists_of_countP (A := A) (p := Block.isTaatsu) (by show taatsus A ≠ 0; omega)
      obtain ⟨A', e⟩ := perm_cons_of_mem hb
      obtain ⟨e1, e2, e3, e4⟩ := counts_perm e
      rcases b with i | i | i | ⟨i, w⟩ | ⟨i, m⟩ <;> simp [Block.isTaatsu] at hbt
      obtain ⟨c1, c2, c3, c4⟩ := counts_cons (.taatsu i w) A'
      simp only [Block.isSet, Block.isTaatsu, Block.isToitsu, Block.isSingle, Bool.false_eq_true, if_false, if_true] at c1 c2 c3 c4
      obtain ⟨b, hb', hbt⟩ := exists_of_countP (A := A') (p := Block.isToitsu) (by show toitsus A' ≠ 0; omega)
      obtain ⟨A'', e'⟩ := perm_cons_of_mem hb'
      obtain ⟨e1', e2', e3', e4'⟩ := counts_perm e'
      rcases b with l | l | l | ⟨l, w'⟩ | ⟨l, m⟩ <;> simp [Block.isToitsu] at hbt
      obtain ⟨c1', c2', c3', c4'⟩ := counts_cons (.toitsu l) A''
      simp only [Block.isSet, Block.isTaatsu, Block.isToitsu, Block.isSingle, Bool.false_eq_true, if_false, if_true] at c1' c2' c3' c4'
      have hset := isSet_of_counts (A := A'') (by omega) (by omega) (by omega)
      have hz := all_zero hnn (by rw [hlo, hs, k2, k3, k4]; omega)
      have ee : A.Perm (.taatsu i w :: .toitsu l :: A'') := e.trans (e'.cons _)
      have hi := a1 _ (ee.mem_iff.2 (List.mem_cons_self))
      have hp := a1 (.toitsu l) (ee.mem_iff.2 (by simp))
      obtain ⟨x, s, hx, hsv, hsu⟩ := taatsu_completes hi
      refine ⟨x, hx, .shuntsu s :: A'', l, cons_set ⟨hsv, rfl⟩ (fun b hb => ⟨a1 b (ee.mem_iff.2 (by simp [hb])), hset b hb⟩), ?_,
        by simpa [Block.valid] using hp, fun j hj => ?_⟩
      · rw [List.length_cons, ← sets_eq_length hset]; omega
      · unfold drawn
        have := hz j (by simpa using hj)
        rw [used_perm ee, used_cons, used_cons] at this
        rw [used_cons, used_cons, hsu]
        generalize (Block.taatsu i w).uses j = u1 at *
        generalize (Block.toitsu l).uses j = u2 at *
        split <;> omega
    · -- two pairs
      obtain ⟨b, hb, hbt⟩ := exists_of_countP (A := A) (p := Block.isToitsu) (by show toitsus A ≠ 0; omega)
      obtain ⟨A', e⟩ := perm_cons_of_mem hb
      obtain ⟨e1, e2, e3, e4⟩ := counts_perm e
      rcases b with i | i | i | ⟨i, w⟩ | ⟨i, m⟩ <;> simp [Block.isToitsu] at hbt
      obtain ⟨c1, c2, c3, c4⟩ := counts_cons (.toitsu i) A'
      simp only [Block.isSet, Block.isTaatsu, Block.isToitsu, Block.isSingle, Bool.false_eq_true, if_false, if_true] at c1 c2 c3 c4
      obtain ⟨b, hb', hbt⟩ := exists_of_countP (A := A') (p := Block.isToitsu) (by show toitsus A' ≠ 0; omega)
      obtain ⟨A'', e'⟩ := perm_cons_of_mem hb'
      obtain ⟨e1', e2', e3', e4'⟩ := counts_perm e'
      rcases b with l | l | l | ⟨l, w'⟩ | ⟨l, m⟩ <;> simp [Block.isToitsu] at hbt
      obtain ⟨c1', c2', c3', c4'⟩ := counts_cons (.toitsu l) A''
      simp only [Block.isSet, Block.isTaatsu, Block.isToitsu, Block.isSingle, Bool.false_eq_true, if_false, if_true] at c1' c2' c3' c4'
      have hset := isSet_of_counts (A := A'') (by omega) (by omega) (by omega)
      have hz := all_zero hnn (by rw [hlo, hs, k2, k3, k4]; omega)
      have ee : A.Perm (.toitsu i :: .toitsu l :: A'') := e.trans (e'.cons _)
      have hi := a1 _ (ee.mem_iff.2 (List.mem_cons_self))
      have hp := a1 (.toitsu l) (ee.mem_iff.2 (by simp))
      have hi' : i < 34 := by simpa [Block.valid] using hi
      refine ⟨i, hi', .koutsu i :: A'', l, cons_set ⟨hi, rfl⟩ (fun b hb => ⟨a1 b (ee.mem_iff.2 (by simp [hb])), hset b hb⟩), ?_,
        by simpa [Block.valid] using hp, fun j hj => ?_⟩
      · rw [List.length_cons, ← sets_eq_length hset]; omega
      · unfold drawn
        have := hz j (by simpa using hj)
        have u1 : (Block.toitsu i).uses j = if j = i then 2 else 0 := rfl
        have u2 : (Block.koutsu i).uses j = if j = i then 3 else 0 := rfl
        rw [used_perm ee, used_cons, used_cons, u1] at this
        rw [used_cons, used_cons, u2]
        by_cases c : j = i
        · rw [if_pos c] at this
          rw [if_pos c, if_pos c]
          omega
        · rw [if_neg c] at this
          rw [if_neg c, if_neg c]
          omega
  refine ⟨⟨lower.2, ?_⟩, lower.1⟩
  rintro ⟨x, hx, B, q, b1, b2, b3, b4⟩
  obtain ⟨t1, t2, t3, t4⟩ := counts_of_sets (fun b hb => (b1 b hb).2)
  have hlen := sets_eq_length (fun b hb => (b1 b hb).2)
  have hux : 1 ≤ used (.toitsu q :: B) x := by
    have := b4 x hx
    unfold drawn at this
    rw [if_pos rfl] at this
    have := (hl.range x).1
    omega
  have hf : Found 0 0 (Solver.init h).pos := by
    by_cases hq : q = x
    · -- the pair is broken
      subst hq
      have hqv : (Block.single q false).valid = true := by simpa [Block.valid] using b3
      obtain ⟨c1, c2, c3, c4⟩ := counts_cons (.single q false) B
      simp only [Block.isSet, Block.isTaatsu, Block.isToitsu, Block.isSingle, Bool.false_eq_true, if_false, if_true] at c1 c2 c3 c4
      refine found_hand hl (D := .single q false :: B) ?_ ?_ (fun j hj => ?_) ?_
      · intro b hb
        rcases List.mem_cons.1 hb with rfl | hb
        · exact hqv
        · exact (b1 b hb).1
      · intro b hb
        rcases List.mem_cons.1 hb with rfl | hb
        · rfl
        · exact t4 b hb
      · have := b4 j hj
        unfold drawn at this
        have u1 : (Block.single q false).uses j = if j = q then 1 else 0 := rfl
        have u2 : (Block.toitsu q).uses j = if j = q then 2 else 0 := rfl
        rw [used_cons, u2] at this
        rw [used_cons, u1]
        by_cases c : j = q
        · rw [if_pos c, if_pos c] at this
          rw [if_pos c]
          omega
        · rw [if_neg c, if_neg c] at this
          rw [if_neg c]
          omega
      · exact .inr ⟨rfl, .inl ⟨by rw [hdiv]; omega, by omega, by omega, by omega⟩⟩
    · -- a set is broken
      obtain ⟨b, hb, hbu⟩ : ∃ b ∈ B, 1 ≤ b.uses x := by
        apply exists_of_used
        rw [used_cons] at hux
        have : (Block.toitsu q).uses x = 0 := if_neg (fun e => hq e.symm)
        omega
      obtain ⟨B', e⟩ := perm_cons_of_mem hb
      obtain ⟨b', v1, v2, v3, v4⟩ := set_minus (b1 b hb).1 (b1 b hb).2 hbu
      have hB' : ∀ c ∈ B', c ∈ B := fun c hc => e.mem_iff.2 (by simp [hc])
      obtain ⟨t1', t2', t3', t4'⟩ := counts_of_sets (A := B') (fun c hc => (b1 c (hB' c hc)).2)
      have hlen' := sets_eq_length (A := B') (fun c hc => (b1 c (hB' c hc)).2)
      have hl' : B.length = B'.length + 1 := by rw [e.length_eq]; rfl
      obtain ⟨c1, c2, c3, c4⟩ := counts_cons b' (.toitsu q :: B')
      obtain ⟨c1', c2', c3', c4'⟩ := counts_cons (.toitsu q) B'
      simp only [Block.isSet, Block.isTaatsu, Block.isToitsu, Block.isSingle, Bool.false_eq_true, if_false, if_true] at c1' c2' c3' c4'
      refine found_hand hl (D := b' :: .toitsu q :: B') ?_ ?_ (fun j hj => ?_) ?_
      · intro c hc
        rcases List.mem_cons.1 hc with rfl | hc
        · exact v1
        · rcases List.mem_cons.1 hc with rfl | hc
          · simpa [Block.valid] using b3
          · exact (b1 c (hB' c hc)).1
      · intro c hc
        rcases List.mem_cons.1 hc with rfl | hc
        · exact v3
        · rcases List.mem_cons.1 hc with rfl | hc
          · rfl
          · exact t4' c hc
      · have := b4 j hj
        unfold drawn at this
        rw [used_cons, used_perm e, used_cons, v4] at this
        rw [used_cons, used_cons]
        generalize (Block.toitsu q).uses j = u1 at *
        generalize b'.uses j = u2 at *
        split at this <;> omega
      · rcases v2 with v2 | v2
        · have f : b'.isSet = false ∧ b'.isToitsu = false ∧ b'.isSingle = false := by
            cases b' <;> simp_all [Block.isSet, Block.isTaatsu, Block.isToitsu, Block.isSingle]
          simp only [v2, f.1, f.2.1, f.2.2, Bool.false_eq_true, if_false, if_true] at c1 c2 c3 c4
          exact .inr ⟨rfl, .inr (.inl ⟨by rw [hdiv]; omega, by omega, by omega, by omega⟩)⟩
        · have f : b'.isSet = false ∧ b'.isTaatsu = false ∧ b'.isSingle = false := by
            cases b' <;> simp_all [Block.isSet, Block.isTaatsu, Block.isToitsu, Block.isSingle]
          simp only [v2, f.1, f.2.1, f.2.2, Bool.false_eq_true, if_false, if_true] at c1 c2 c3 c4
          exact .inr ⟨rfl, .inr (.inr ⟨by rw [hdiv]; omega, by omega, by omega, by omega⟩)⟩
  have := found_le hf
  have := lower.1
  omega

end MJ
