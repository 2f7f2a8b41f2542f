import Verif.Model.Embedding
import Verif.Proofs.NakiIdx
import Verif.Model.Tokens
/-!
The bit fields of a token as division and remainder.
-/
namespace MJ

theorem sshift_and_toNat (t : BitVec 64) (s k : Nat) (h : s + k ≤ 64) :
    ((t.sshiftRight s) &&& (BitVec.ofNat 64 (2 ^ k - 1))).toNat = t.toNat / 2 ^ s % 2 ^ k := by
  have hlt : t.toNat / 2 ^ s % 2 ^ k < 2 ^ 64 := by
    have h1 : t.toNat / 2 ^ s % 2 ^ k ≤ t.toNat / 2 ^ s := Nat.mod_le _ _
    have h2 : t.toNat / 2 ^ s ≤ t.toNat := Nat.div_le_self _ _
    have := t.isLt
    omega
  have : (t.sshiftRight s) &&& (BitVec.ofNat 64 (2 ^ k - 1)) = BitVec.ofNat 64 (t.toNat / 2 ^ s % 2 ^ k) := by
    apply BitVec.eq_of_getLsbD_eq
    intro i hi
    rw [BitVec.getLsbD_and, BitVec.getLsbD_sshiftRight, BitVec.getLsbD_ofNat, BitVec.getLsbD_ofNat,
      Nat.testBit_two_pow_sub_one, Nat.testBit_mod_two_pow, Nat.testBit_div_two_pow]
    by_cases hk : i < k
    · have h1 : ¬ 64 ≤ i := by omega
      have h2 : s + i < 64 := by omega
      simp [hi, hk, h1, h2, BitVec.getLsbD, Nat.add_comm]
    · simp [hk]
  rw [this, BitVec.toNat_ofNat, Nat.mod_eq_of_lt hlt]

theorem and_toNat (t : BitVec 64) (k : Nat) (h : k ≤ 64) :
    (t &&& (BitVec.ofNat 64 (2 ^ k - 1))).toNat = t.toNat % 2 ^ k := by
  have := sshift_and_toNat t 0 k (by omega)
  simpa using this

theorem tokenFields_eq (t : BitVec 64) :
    tokenFields t =
      { event_type := t.toNat / 8192 % 8, embedding_type := t.toNat / 1024 % 8
        player_idx := t.toNat / 256 % 4, tile_encoding := t.toNat % 128
        tsumogiri := t.toNat / 128 % 2, naki_idx := t.toNat % 256 } := by
  have h1 := sshift_and_toNat t 13 3 (by omega)
  have h2 := sshift_and_toNat t 10 3 (by omega)
  have h3 := sshift_and_toNat t 8 2 (by omega)
  have h4 := sshift_and_toNat t 7 1 (by omega)
  have h5 := and_toNat t 7 (by omega)
  have h6 := and_toNat t 8 (by omega)
  simp only [tokenFields, TokenFields.mk.injEq]
  exact ⟨h1, h2, h3, h5, h4, h6⟩

/-- fields of a token written as a sum of its parts -/
theorem tokenFields_parts (s e p n : Nat) (hs : s < 8) (he : e < 8) (hp : p < 4) (hn : n < 256) :
    tokenFields (BitVec.ofNat 64 (s * 8192 + e * 1024 + p * 256 + n)) =
      { event_type := s, embedding_type := e, player_idx := p, tile_encoding := n % 128
        tsumogiri := n / 128, naki_idx := n } := by
  rw [tokenFields_eq, BitVec.toNat_ofNat]
  simp only [TokenFields.mk.injEq]
  omega

/-- or-ing shifted fields is adding them -/
theorem or_parts (s e p n : Nat) (he : e < 8) (hp : p < 4) (hn : n < 256) :
    s <<< 13 ||| e <<< 10 ||| p <<< 8 ||| n = s * 8192 + e * 1024 + p * 256 + n := by
  have h1 : e <<< 10 < 2 ^ 13 := by rw [Nat.shiftLeft_eq]; omega
  have h2 : p <<< 8 < 2 ^ 10 := by rw [Nat.shiftLeft_eq]; omega
  have e1 : s <<< 13 ||| e <<< 10 = s * 8192 + e * 1024 := by
    rw [Nat.or_comm, or_shl 13 s _ h1, Nat.shiftLeft_eq]
  have e2 : (s * 8192 + e * 1024) ||| p <<< 8 = s * 8192 + e * 1024 + p * 256 := by
    have := or_shl 10 (s * 8 + e) _ h2
    rw [Nat.or_comm, Nat.shiftLeft_eq (s * 8 + e)] at this
    rw [show s * 8192 + e * 1024 = (s * 8 + e) * 2 ^ 10 by omega, this, Nat.shiftLeft_eq]
  have e3 : (s * 8192 + e * 1024 + p * 256) ||| n = s * 8192 + e * 1024 + p * 256 + n := by
    have := or_shl 8 (s * 32 + e * 4 + p) n (by omega)
    rw [Nat.or_comm, Nat.shiftLeft_eq] at this
    rw [show s * 8192 + e * 1024 + p * 256 = (s * 32 + e * 4 + p) * 2 ^ 8 by omega, this]
  rw [e1, e2, e3]

end MJ
