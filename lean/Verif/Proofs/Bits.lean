/-!
Turning mask/shift expressions into division and remainder.
-/
namespace MJ

theorem and_mask (c s k : Nat) :
    c &&& ((2 ^ k - 1) <<< s) = ((c / 2 ^ s) % 2 ^ k) * 2 ^ s := by
  apply Nat.eq_of_testBit_eq
  intro i
  rw [Nat.testBit_and, Nat.testBit_shiftLeft, Nat.testBit_two_pow_sub_one, ← Nat.shiftLeft_eq,
    Nat.testBit_shiftLeft, Nat.testBit_mod_two_pow, Nat.testBit_div_two_pow]
  by_cases h : s ≤ i
  · simp only [h, decide_true, Bool.true_and, Nat.sub_add_cancel h]
    exact Bool.and_comm _ _
  · simp [h]

theorem and_mask_shr (c s k : Nat) :
    (c &&& ((2 ^ k - 1) <<< s)) >>> s = (c / 2 ^ s) % 2 ^ k := by
  rw [and_mask, Nat.shiftRight_eq_div_pow, Nat.mul_div_cancel _ (Nat.two_pow_pos s)]

theorem split_or (k a x y : Nat) (hx : x < 2 ^ k) (hy : y < 2 ^ k) :
    (a * 2 ^ k + x) ||| y = a * 2 ^ k + (x ||| y) := by
  rw [Nat.mul_comm a, Nat.two_pow_add_eq_or_of_lt hx, Nat.or_assoc,
    ← Nat.two_pow_add_eq_or_of_lt (Nat.or_lt_two_pow hx hy)]

theorem split_xor (k a x y : Nat) (hx : x < 2 ^ k) (hy : y < 2 ^ k) :
    (a * 2 ^ k + x) ^^^ y = a * 2 ^ k + (x ^^^ y) := by
  apply Nat.eq_of_testBit_eq
  intro i
  rw [Nat.mul_comm a, Nat.testBit_xor]
  by_cases h : i < k
  · rw [Nat.testBit_two_pow_mul_add _ hx, Nat.testBit_two_pow_mul_add _ (Nat.xor_lt_two_pow hx hy)]
    simp [h]
  · rw [Nat.testBit_two_pow_mul_add _ hx, Nat.testBit_two_pow_mul_add _ (Nat.xor_lt_two_pow hx hy)]
    have : y.testBit i = false :=
      Nat.testBit_lt_two_pow (Nat.lt_of_lt_of_le hy (Nat.pow_le_pow_right (by omega) (by omega)))
    simp [h, this]

/-- a value below `2 ^ k` or-ed with a multiple of `2 ^ k` -/
theorem or_shl (k a x : Nat) (hx : x < 2 ^ k) : x ||| (a <<< k) = a * 2 ^ k + x := by
  rw [Nat.or_comm, Nat.shiftLeft_eq, Nat.mul_comm a, ← Nat.two_pow_add_eq_or_of_lt hx]

end MJ
