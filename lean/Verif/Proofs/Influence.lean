import Verif.Spec.Coordinates
import Verif.Proofs.Network
import Mathlib.Tactic.Linarith
import Mathlib.Tactic.Positivity
import Mathlib.Tactic.FieldSimp
import Mathlib.Logic.Equiv.Fin.Basic
/-!
Layers with few non-zero parameters.
-/
namespace MJ.Net
open scoped BigOperators
open Spec

/-! ### single entries -/

/-- one non-zero entry -/
def single {n : ℕ} (o : Fin n) (r : ℝ) : Fin n → ℝ := fun i => if i = o then r else 0

/-- a linear layer with one weight -/
def pt {m n : ℕ} (o : Fin n) (i : Fin m) (w : ℝ) (b : Fin n → ℝ) : Linear m n :=
  ⟨fun o' i' => if o' = o ∧ i' = i then w else 0, b⟩

@[simp] theorem single_self {n : ℕ} (o : Fin n) (r : ℝ) : single o r o = r := by simp [single]
@[simp] theorem single_zero {n : ℕ} (o : Fin n) : single o 0 = 0 := by funext i; simp [single]

theorem single_ne {n : ℕ} {o i : Fin n} (h : i ≠ o) (r : ℝ) : single o r i = 0 := by simp [single, h]

theorem pt_fwd {m n : ℕ} (o : Fin n) (i : Fin m) (w : ℝ) (b : Fin n → ℝ) (x : Fin m → ℝ) (o' : Fin n) :
    (pt o i w b).fwd x o' = (if o' = o then w * x i else 0) + b o' := by
  unfold pt Linear.fwd
  by_cases h : o' = o
  · simp [h]
  · simp [h]

theorem pt_set_weight {m n : ℕ} (o : Fin n) (i : Fin m) (w r : ℝ) (b : Fin n → ℝ) :
    (pt o i w b).set r (.weight o i) = pt o i r b := by
  simp only [pt, Linear.set]
  congr 1
  funext o' i'
  split <;> rfl

theorem pt_set_bias {m n : ℕ} (o o1 : Fin n) (i : Fin m) (w r s : ℝ) :
    (pt o i w (single o1 s)).set r (.bias o1) = pt o i w (single o1 r) := by
  simp only [pt, Linear.set]
  congr 1
  funext o'
  unfold single
  split <;> rfl

theorem norm_set_weight {n : ℕ} (i : Fin n) (w r : ℝ) (b : Fin n → ℝ) :
    LayerNorm.set ⟨single i w, b⟩ r (.weight i) = ⟨single i r, b⟩ := by
  simp only [LayerNorm.set]
  congr 1
  funext i'
  unfold single
  split <;> rfl

theorem norm_set_bias {n : ℕ} (i : Fin n) (s r : ℝ) (w : Fin n → ℝ) :
    LayerNorm.set ⟨w, single i s⟩ r (.bias i) = ⟨w, single i r⟩ := by
  simp only [LayerNorm.set]
  congr 1
  funext i'
  unfold single
  split <;> rfl

/-! ### normalisation -/

/-- the normalised vector -/
noncomputable def normz {n : ℕ} (x : Fin n → ℝ) (i : Fin n) : ℝ := (x i - mean x) / Real.sqrt (variance x + 1 / 100000)

theorem norm_fwd {n : ℕ} (l : LayerNorm n) (x : Fin n → ℝ) (i : Fin n) : l.fwd x i = normz x i * l.weight i + l.bias i := rfl

theorem normz_zero {n : ℕ} : normz (0 : Fin n → ℝ) = 0 := by
  funext i
  simp [normz, mean]

theorem sqrt_var_pos {n : ℕ} (x : Fin n → ℝ) : 0 < Real.sqrt (variance x + 1 / 100000) := by
  apply Real.sqrt_pos.2
  have : 0 ≤ variance x := div_nonneg (Finset.sum_nonneg (fun i _ => sq_nonneg _)) (Nat.cast_nonneg _)
  linarith

theorem normz_single_ne {o : Fin embdSize} {r : ℝ} (h : r ≠ 0) : normz (single o r) o ≠ 0 := by
  unfold normz
  refine div_ne_zero ?_ (sqrt_var_pos _).ne'
  have : mean (single o r) = r / 64 := by simp [mean, single, embdSize]
  rw [this, single_self]
  intro h'
  apply h
  linarith

/-! ### attention with one channel -/

/-- keys, queries and values of one head in one coordinate; the other heads are zero -/
noncomputable def chan1 (n : Fin nHeads) (m : Fin headSize) (ik : Fin embdSize) (κ : ℝ) (iq : Fin embdSize) (χ β : ℝ) (iv : Fin embdSize)
    (ν γ : ℝ) (proj : Linear (nHeads * headSize) embdSize) : MultiHeadAttention :=
  { heads := fun n' => if n' = n then ⟨pt m ik κ 0, pt m iq χ (single m β), pt m iv ν (single m γ)⟩
      else ⟨⟨0, 0⟩, ⟨0, 0⟩, ⟨0, 0⟩⟩
    proj := proj }

theorem chan1_fwd {B T Q : ℕ} {n : Fin nHeads} {m : Fin headSize} {ik : Fin embdSize} {κ : ℝ} {iq : Fin embdSize} {χ β : ℝ}
    {iv : Fin embdSize} {ν γ : ℝ} {o : Fin embdSize} {j : Fin (nHeads * headSize)} (hn : j.divNat = n) (hm : j.modNat = m) {w : ℝ}
    {bp : Fin embdSize → ℝ} (k v : T3 B T embdSize) (q : T3 B Q embdSize) (b : Fin B) (t : Fin Q) (o' : Fin embdSize) :
    (chan1 n m ik κ iq χ β iv ν γ (pt o j w bp)).fwd k v q b t o' =
      (if o' = o then w * ∑ s, softmax (fun s => (χ * q b t iq + β) * (κ * k b s ik) / Real.sqrt 8) s * (ν * v b s iv + γ) else 0)
        + bp o' := by
  unfold MultiHeadAttention.fwd
  simp only [chan1]
  rw [pt_fwd]
  congr 1
  split
  · congr 1
    subst hn hm
    unfold Head.fwd bmm
    refine Finset.sum_congr rfl fun s _ => ?_
    congr 1
    · unfold Head.wei softmaxLast
      dsimp only
      congr 1
      funext s
      unfold bmm transpose12
      dsimp only
      rw [Finset.sum_eq_single j.modNat]
      · rw [pt_fwd, pt_fwd]
        simp
      · intro m' _ hm'
        rw [pt_fwd, pt_fwd]
        simp [hm']
      · simp
    · dsimp only
      rw [pt_fwd]
      simp
  · rfl

section
variable {n : Fin nHeads} {m : Fin headSize} {ik : Fin embdSize} {κ : ℝ} {iq : Fin embdSize} {χ β : ℝ}
    {iv : Fin embdSize} {ν γ : ℝ} {P : Linear (nHeads * headSize) embdSize} (r : ℝ)

theorem chan1_set_key : (chan1 n m ik κ iq χ β iv ν γ P).set r (.head n (.key (.weight m ik))) = chan1 n m ik r iq χ β iv ν γ P := by
  simp only [chan1, MultiHeadAttention.set, Head.set, if_true]
  congr 1
  funext n'
  split
  · rw [pt_set_weight]
  · rfl

theorem chan1_set_query : (chan1 n m ik κ iq χ β iv ν γ P).set r (.head n (.query (.weight m iq))) = chan1 n m ik κ iq r β iv ν γ P := by
  simp only [chan1, MultiHeadAttention.set, Head.set, if_true]
  congr 1
  funext n'
  split
  · rw [pt_set_weight]
  · rfl

theorem chan1_set_query_bias : (chan1 n m ik κ iq χ β iv ν γ P).set r (.head n (.query (.bias m))) = chan1 n m ik κ iq χ r iv ν γ P := by
  simp only [chan1, MultiHeadAttention.set, Head.set, if_true]
  congr 1
  funext n'
  split
  · rw [pt_set_bias]
  · rfl

theorem chan1_set_value : (chan1 n m ik κ iq χ β iv ν γ P).set r (.head n (.value (.weight m iv))) = chan1 n m ik κ iq χ β iv r γ P := by
  simp only [chan1, MultiHeadAttention.set, Head.set, if_true]
  congr 1
  funext n'
  split
  · rw [pt_set_weight]
  · rfl

theorem chan1_set_value_bias : (chan1 n m ik κ iq χ β iv ν γ P).set r (.head n (.value (.bias m))) = chan1 n m ik κ iq χ β iv ν r P := by
  simp only [chan1, MultiHeadAttention.set, Head.set, if_true]
  congr 1
  funext n'
  split
  · rw [pt_set_bias]
  · rfl

theorem chan1_set_proj (c : LinCoord (nHeads * headSize) embdSize) :
    (chan1 n m ik κ iq χ β iv ν γ P).set r (.proj c) = chan1 n m ik κ iq χ β iv ν γ (P.set r c) := rfl

end

/-- the weight of a position with score `z` when the other 149 have score zero -/
noncomputable def lead (z : ℝ) : ℝ := Real.exp z / (Real.exp z + 149)

theorem lead_inj {x y : ℝ} (h : lead x = lead y) : x = y := by
  unfold lead at h
  have hx := Real.exp_pos x
  have hy := Real.exp_pos y
  rw [div_eq_div_iff (by linarith) (by linarith)] at h
  apply Real.exp_injective
  linarith

theorem sum_lead (z u ν γ : ℝ) :
    ∑ s : Fin 150, softmax (fun s => if s = 0 then z else 0) s * (ν * (if s = 0 then u else 0) + γ) = ν * u * lead z + γ := by
  have h1 := softmax_sum (fun s : Fin 150 => if s = 0 then z else 0) (by decide)
  have h0 : softmax (fun s : Fin 150 => if s = 0 then z else 0) 0 = lead z := by
    unfold softmax lead
    simp only [↓reduceIte]
    congr 1
    have : ∀ s : Fin 150, Real.exp (if s = 0 then z else 0) = 1 + (if s = 0 then Real.exp z - 1 else 0) := by
      intro s; split <;> simp
    simp only [this]
    rw [Finset.sum_add_distrib]
    simp
    ring
  simp only [mul_add]
  rw [Finset.sum_add_distrib, ← Finset.sum_mul, h1, one_mul]
  congr 1
  rw [Finset.sum_eq_single 0]
  · rw [h0]; simp; ring
  · intro s _ hs; simp [hs]
  · simp

theorem sum_softmax_const {n : ℕ} (hn : 0 < n) (l : Fin n → ℝ) (c : ℝ) : ∑ s, softmax l s * c = c := by
  rw [← Finset.sum_mul, softmax_sum l hn, one_mul]

/-! ### one sample -/

/-- attention of one query to a sequence -/
noncomputable def attn1 {T : ℕ} (m : MultiHeadAttention) (F : Fin T → Fin embdSize → ℝ) (q : Fin embdSize → ℝ) : Fin embdSize → ℝ :=
  m.fwd (fun _ : Fin 1 => F) (fun _ => F) (fun _ (_ : Fin 1) => q) 0 0

/-- a sequence with one vector and zeros -/
def lump (f : Fin embdSize → ℝ) : Fin 150 → Fin embdSize → ℝ := fun s i => if s = 0 then f i else 0

theorem chan1_attn {T : ℕ} {n : Fin nHeads} {m : Fin headSize} {ik : Fin embdSize} {κ : ℝ} {iq : Fin embdSize} {χ β : ℝ}
    {iv : Fin embdSize} {ν γ : ℝ} {o : Fin embdSize} {j : Fin (nHeads * headSize)} (hn : j.divNat = n) (hm : j.modNat = m) {w : ℝ}
    {bp : Fin embdSize → ℝ} (F : Fin T → Fin embdSize → ℝ) (q : Fin embdSize → ℝ) :
    attn1 (chan1 n m ik κ iq χ β iv ν γ (pt o j w bp)) F q =
      single o (w * ∑ s, softmax (fun s => (χ * q iq + β) * (κ * F s ik) / Real.sqrt 8) s * (ν * F s iv + γ)) + bp := by
  funext o'
  unfold attn1
  rw [chan1_fwd hn hm]
  rfl

/-- the position of a head's entry in the concatenation -/
theorem exists_slot (n : Fin nHeads) (m : Fin headSize) : ∃ j : Fin (nHeads * headSize), j.divNat = n ∧ j.modNat = m := by
  refine ⟨finProdFinEquiv (n, m), ?_⟩
  have h := finProdFinEquiv.symm_apply_apply (n, m)
  exact ⟨congrArg Prod.fst h, congrArg Prod.snd h⟩

theorem attn_lump {n : Fin nHeads} {m : Fin headSize} {i iq : Fin embdSize} {κ χ β ν γ : ℝ} {o : Fin embdSize}
    {j : Fin (nHeads * headSize)} (hn : j.divNat = n) (hm : j.modNat = m) {w : ℝ} {bp : Fin embdSize → ℝ}
    (F : Fin 150 → Fin embdSize → ℝ) (u : ℝ) (hF : ∀ s, F s i = if s = 0 then u else 0) (q : Fin embdSize → ℝ) :
    attn1 (chan1 n m i κ iq χ β i ν γ (pt o j w bp)) F q =
      single o (w * (ν * u * lead ((χ * q iq + β) * (κ * u) / Real.sqrt 8) + γ)) + bp := by
  rw [chan1_attn hn hm]
  congr 2
  congr 1
  rw [← sum_lead]
  refine Finset.sum_congr rfl fun s _ => ?_
  rw [hF s]
  congr 2
  funext s
  rw [hF s]
  split <;> simp

theorem attn_const {T : ℕ} (hT : 0 < T) {n : Fin nHeads} {m : Fin headSize} {ik iq iv : Fin embdSize} {κ χ β ν γ : ℝ} {o : Fin embdSize}
    {j : Fin (nHeads * headSize)} (hn : j.divNat = n) (hm : j.modNat = m) {w : ℝ} {bp : Fin embdSize → ℝ}
    (F : Fin T → Fin embdSize → ℝ) (u : ℝ) (hF : ∀ s, F s iv = u) (q : Fin embdSize → ℝ) :
    attn1 (chan1 n m ik κ iq χ β iv ν γ (pt o j w bp)) F q = single o (w * (ν * u + γ)) + bp := by
  rw [chan1_attn hn hm]
  congr 2
  congr 1
  simp only [hF]
  exact sum_softmax_const hT _ _

theorem sqrt8_pos : 0 < Real.sqrt 8 := Real.sqrt_pos.2 (by norm_num)

theorem lead_ne {x y : ℝ} (h : x ≠ y) : lead y - lead x ≠ 0 := fun e => h (lead_inj (by linarith))

theorem lead_zero_pos : 0 < lead 0 := by unfold lead; positivity

/-! ### tests -/

/-- attention to `lump f` gives zero with one set of parameters and something else with another -/
def CrossTest (a a' : MultiHeadAttention) (l l' : LayerNorm embdSize) : Prop :=
  ∃ (x f : Fin embdSize → ℝ) (o : Fin embdSize) (D : ℝ), 0 ≤ x ∧ D ≠ 0 ∧
    x + attn1 a (lump f) (l.fwd x) = 0 ∧ x + attn1 a' (lump f) (l'.fwd x) = single o D

theorem single_nonneg {n : ℕ} (i : Fin n) {r : ℝ} (h : 0 ≤ r) : 0 ≤ single i r := by
  intro k
  unfold single
  split
  · exact h
  · exact le_refl _

theorem single_sub {n : ℕ} (o : Fin n) (a b : ℝ) : single o a - single o b = single o (a - b) := by
  funext i; simp only [single, Pi.sub_apply]; split <;> simp

theorem single_add {n : ℕ} (o : Fin n) (a b : ℝ) : single o a + single o b = single o (a + b) := by
  funext i; simp only [single, Pi.add_apply]; split <;> simp

/-- the general test: `x`, minus `x` and the value before -/
theorem cross_of {n : Fin nHeads} {m : Fin headSize} {i iq : Fin embdSize} {κ χ β ν γ w κ' χ' β' ν' γ' w' : ℝ} {o : Fin embdSize}
    {j : Fin (nHeads * headSize)} (hn : j.divNat = n) (hm : j.modNat = m) (l l' : LayerNorm embdSize) (x : Fin embdSize → ℝ) (hx : 0 ≤ x)
    (hD : w' * (ν' * lead ((χ' * l'.fwd x iq + β') * κ' / Real.sqrt 8) + γ') ≠ w * (ν * lead ((χ * l.fwd x iq + β) * κ / Real.sqrt 8) + γ)) :
    ∃ bp, CrossTest (chan1 n m i κ iq χ β i ν γ (pt o j w bp)) (chan1 n m i κ' iq χ' β' i ν' γ' (pt o j w' bp)) l l' := by
  refine ⟨- x - single o (w * (ν * lead ((χ * l.fwd x iq + β) * κ / Real.sqrt 8) + γ)), x, single i 1, o, _, hx, sub_ne_zero.2 hD, ?_, ?_⟩
  · rw [attn_lump hn hm _ 1 (fun s => by simp [lump])]
    simp only [mul_one]
    abel
  · rw [attn_lump hn hm _ 1 (fun s => by simp [lump]), ← single_sub]
    simp only [mul_one]
    abel

theorem norm_at {i : Fin embdSize} {w b : ℝ} {x : Fin embdSize → ℝ} :
    LayerNorm.fwd ⟨single i w, single i b⟩ x i = normz x i * w + b := by
  rw [norm_fwd]; simp

theorem cross_attn (c : AttnCoord) (hc : ¬ c.keyBias) : ∃ a l r, CrossTest a (a.set r c) l l := by
  have h8 := sqrt8_pos
  have hl : lead (1 / Real.sqrt 8) ≠ lead 0 := fun e => (div_pos one_pos h8).ne' (lead_inj e)
  have hl0 := lead_zero_pos
  match c, hc with
  | .head n (.key (.weight m ik)), _ =>
    obtain ⟨j, hn, hm⟩ := exists_slot n m
    obtain ⟨bp, h⟩ := cross_of (κ := 0) (χ := 0) (β := 1) (ν := 1) (γ := 0) (w := 1) (κ' := 1) (χ' := 0) (β' := 1) (ν' := 1) (γ' := 0)
      (w' := 1) (i := ik) (iq := 0) (o := 0) hn hm ⟨0, 0⟩ ⟨0, 0⟩ 0 (le_refl _) (by simpa using hl)
    exact ⟨_, _, 1, by rw [chan1_set_key]; exact h⟩
  | .head n (.key (.bias m)), hc => exact absurd trivial hc
  | .head n (.query (.weight m iq)), _ =>
    obtain ⟨j, hn, hm⟩ := exists_slot n m
    obtain ⟨bp, h⟩ := cross_of (κ := 1) (χ := 0) (β := 0) (ν := 1) (γ := 0) (w := 1) (κ' := 1) (χ' := 1) (β' := 0) (ν' := 1) (γ' := 0)
      (w' := 1) (i := 0) (iq := iq) (o := 0) hn hm ⟨0, 1⟩ ⟨0, 1⟩ 0 (le_refl _) (by simpa [norm_fwd] using hl)
    exact ⟨_, _, 1, by rw [chan1_set_query]; exact h⟩
  | .head n (.query (.bias m)), _ =>
    obtain ⟨j, hn, hm⟩ := exists_slot n m
    obtain ⟨bp, h⟩ := cross_of (κ := 1) (χ := 0) (β := 0) (ν := 1) (γ := 0) (w := 1) (κ' := 1) (χ' := 0) (β' := 1) (ν' := 1) (γ' := 0)
      (w' := 1) (i := 0) (iq := 0) (o := 0) hn hm ⟨0, 0⟩ ⟨0, 0⟩ 0 (le_refl _) (by simpa using hl)
    exact ⟨_, _, 1, by rw [chan1_set_query_bias]; exact h⟩
  | .head n (.value (.weight m iv)), _ =>
    obtain ⟨j, hn, hm⟩ := exists_slot n m
    obtain ⟨bp, h⟩ := cross_of (κ := 0) (χ := 0) (β := 0) (ν := 0) (γ := 0) (w := 1) (κ' := 0) (χ' := 0) (β' := 0) (ν' := 1) (γ' := 0)
      (w' := 1) (i := iv) (iq := 0) (o := 0) hn hm ⟨0, 0⟩ ⟨0, 0⟩ 0 (le_refl _) (by simpa using hl0.ne')
    exact ⟨_, _, 1, by rw [chan1_set_value]; exact h⟩
  | .head n (.value (.bias m)), _ =>
    obtain ⟨j, hn, hm⟩ := exists_slot n m
    obtain ⟨bp, h⟩ := cross_of (κ := 0) (χ := 0) (β := 0) (ν := 0) (γ := 0) (w := 1) (κ' := 0) (χ' := 0) (β' := 0) (ν' := 0) (γ' := 1)
      (w' := 1) (i := 0) (iq := 0) (o := 0) hn hm ⟨0, 0⟩ ⟨0, 0⟩ 0 (le_refl _) (by simp)
    exact ⟨_, _, 1, by rw [chan1_set_value_bias]; exact h⟩
  | .proj (.weight o j), _ =>
    obtain ⟨bp, h⟩ := cross_of (κ := 0) (χ := 0) (β := 0) (ν := 0) (γ := 1) (w := 0) (κ' := 0) (χ' := 0) (β' := 0) (ν' := 0) (γ' := 1)
      (w' := 1) (i := 0) (iq := 0) (o := o) (j := j) rfl rfl ⟨0, 0⟩ ⟨0, 0⟩ 0 (le_refl _) (by simp)
    exact ⟨_, _, 1, by rw [chan1_set_proj, pt_set_weight]; exact h⟩
  | .proj (.bias o), _ =>
    obtain ⟨j, hn, hm⟩ := exists_slot 0 0
    refine ⟨chan1 0 0 0 0 0 0 0 0 0 0 (pt o j 0 (single o 0)), ⟨0, 0⟩, 1, 0, 0, o, 1, le_refl _, one_ne_zero, ?_, ?_⟩
    · rw [attn_const (by decide) hn hm _ 0 (fun s => by simp [lump])]
      simp
    · rw [chan1_set_proj, pt_set_bias, attn_const (by decide) hn hm _ 0 (fun s => by simp [lump])]
      simp

theorem cross_norm (c : NormCoord embdSize) : ∃ a l r, CrossTest a a l (l.set r c) := by
  have h8 := sqrt8_pos
  obtain ⟨j, hn, hm⟩ := exists_slot 0 0
  match c with
  | .weight i =>
    have hU := normz_single_ne (o := i) (r := 1) one_ne_zero
    obtain ⟨bp, h⟩ := cross_of (κ := 1) (χ := 1) (β := 0) (ν := 1) (γ := 0) (w := 1) (κ' := 1) (χ' := 1) (β' := 0) (ν' := 1) (γ' := 0)
      (w' := 1) (i := 0) (iq := i) (o := 0) hn hm ⟨single i 0, single i 0⟩ ⟨single i 1, single i 0⟩ (single i 1)
      (single_nonneg i zero_le_one) (by
        rw [norm_at, norm_at]
        intro e
        simp only [one_mul, mul_one, mul_zero, add_zero, zero_div] at e
        exact div_ne_zero hU h8.ne' (lead_inj e))
    exact ⟨_, _, 1, by rw [norm_set_weight]; exact h⟩
  | .bias i =>
    obtain ⟨bp, h⟩ := cross_of (κ := 1) (χ := 1) (β := 0) (ν := 1) (γ := 0) (w := 1) (κ' := 1) (χ' := 1) (β' := 0) (ν' := 1) (γ' := 0)
      (w' := 1) (i := 0) (iq := i) (o := 0) hn hm ⟨single i 0, single i 0⟩ ⟨single i 0, single i 1⟩ 0 (le_refl _) (by
        rw [norm_at, norm_at]
        intro e
        simp only [one_mul, mul_one, mul_zero, add_zero, zero_add, zero_div] at e
        exact div_ne_zero one_ne_zero h8.ne' (lead_inj e))
    exact ⟨_, _, 1, by rw [norm_set_bias]; exact h⟩

/-- the same for attention of a vector to itself -/
def SelfTest (a a' : MultiHeadAttention) (l l' : LayerNorm embdSize) : Prop :=
  ∃ (x : Fin embdSize → ℝ) (o : Fin embdSize) (D : ℝ), 0 ≤ x ∧ D ≠ 0 ∧
    x + attn1 a (fun _ : Fin 1 => l.fwd x) (l.fwd x) = 0 ∧ x + attn1 a' (fun _ : Fin 1 => l'.fwd x) (l'.fwd x) = single o D

theorem self_of {n : Fin nHeads} {m : Fin headSize} {i iq iv : Fin embdSize} {κ χ β ν γ w ν' γ' w' : ℝ} {o : Fin embdSize}
    {j : Fin (nHeads * headSize)} (hn : j.divNat = n) (hm : j.modNat = m) (l l' : LayerNorm embdSize) (x : Fin embdSize → ℝ) (hx : 0 ≤ x)
    (hD : w' * (ν' * l'.fwd x iv + γ') ≠ w * (ν * l.fwd x iv + γ)) :
    ∃ bp, SelfTest (chan1 n m i κ iq χ β iv ν γ (pt o j w bp)) (chan1 n m i κ iq χ β iv ν' γ' (pt o j w' bp)) l l' := by
  refine ⟨- x - single o (w * (ν * l.fwd x iv + γ)), x, o, _, hx, sub_ne_zero.2 hD, ?_, ?_⟩
  · rw [attn_const one_pos hn hm _ (l.fwd x iv) (fun s => rfl)]
    abel
  · rw [attn_const one_pos hn hm _ (l'.fwd x iv) (fun s => rfl), ← single_sub]
    abel

theorem self_attn (c : AttnCoord) (hc : ¬ c.keyOrQuery) : ∃ a l r, SelfTest a (a.set r c) l l := by
  match c, hc with
  | .head n (.key (.weight m ik)), hc => exact absurd trivial hc
  | .head n (.key (.bias m)), hc => exact absurd trivial hc
  | .head n (.query (.weight m iq)), hc => exact absurd trivial hc
  | .head n (.query (.bias m)), hc => exact absurd trivial hc
  | .head n (.value (.weight m iv)), _ =>
    obtain ⟨j, hn, hm⟩ := exists_slot n m
    obtain ⟨bp, h⟩ := self_of (κ := 0) (χ := 0) (β := 0) (ν := 0) (γ := 0) (w := 1) (ν' := 1) (γ' := 0)
      (w' := 1) (i := 0) (iq := 0) (iv := iv) (o := 0) hn hm ⟨0, 1⟩ ⟨0, 1⟩ 0 (le_refl _) (by simp [norm_fwd])
    exact ⟨_, _, 1, by rw [chan1_set_value]; exact h⟩
  | .head n (.value (.bias m)), _ =>
    obtain ⟨j, hn, hm⟩ := exists_slot n m
    obtain ⟨bp, h⟩ := self_of (κ := 0) (χ := 0) (β := 0) (ν := 0) (γ := 0) (w := 1) (ν' := 0) (γ' := 1)
      (w' := 1) (i := 0) (iq := 0) (iv := 0) (o := 0) hn hm ⟨0, 0⟩ ⟨0, 0⟩ 0 (le_refl _) (by simp)
    exact ⟨_, _, 1, by rw [chan1_set_value_bias]; exact h⟩
  | .proj (.weight o j), _ =>
    obtain ⟨bp, h⟩ := self_of (κ := 0) (χ := 0) (β := 0) (ν := 0) (γ := 1) (w := 0) (ν' := 0) (γ' := 1)
      (w' := 1) (i := 0) (iq := 0) (iv := 0) (o := o) (j := j) rfl rfl ⟨0, 0⟩ ⟨0, 0⟩ 0 (le_refl _) (by simp)
    exact ⟨_, _, 1, by rw [chan1_set_proj, pt_set_weight]; exact h⟩
  | .proj (.bias o), _ =>
    obtain ⟨j, hn, hm⟩ := exists_slot 0 0
    refine ⟨chan1 0 0 0 0 0 0 0 0 0 0 (pt o j 0 (single o 0)), ⟨0, 0⟩, 1, 0, o, 1, le_refl _, one_ne_zero, ?_, ?_⟩
    · rw [attn_const one_pos hn hm _ _ (fun s => rfl)]
      simp
    · rw [chan1_set_proj, pt_set_bias, attn_const one_pos hn hm _ _ (fun s => rfl)]
      simp

theorem self_norm (c : NormCoord embdSize) : ∃ a l r, SelfTest a a l (l.set r c) := by
  obtain ⟨j, hn, hm⟩ := exists_slot 0 0
  match c with
  | .weight i =>
    have hU := normz_single_ne (o := i) (r := 1) one_ne_zero
    obtain ⟨bp, h⟩ := self_of (κ := 0) (χ := 0) (β := 0) (ν := 1) (γ := 0) (w := 1) (ν' := 1) (γ' := 0)
      (w' := 1) (i := 0) (iq := 0) (iv := i) (o := 0) hn hm ⟨single i 0, single i 0⟩ ⟨single i 1, single i 0⟩ (single i 1)
      (single_nonneg i zero_le_one) (by rw [norm_at, norm_at]; simpa using hU)
    exact ⟨_, _, 1, by rw [norm_set_weight]; exact h⟩
  | .bias i =>
    obtain ⟨bp, h⟩ := self_of (κ := 0) (χ := 0) (β := 0) (ν := 1) (γ := 0) (w := 1) (ν' := 1) (γ' := 0)
      (w' := 1) (i := 0) (iq := 0) (iv := i) (o := 0) hn hm ⟨single i 0, single i 0⟩ ⟨single i 0, single i 1⟩ 0 (le_refl _)
      (by rw [norm_at, norm_at]; simp)
    exact ⟨_, _, 1, by rw [norm_set_bias]; exact h⟩

/-- the feed-forward layer with one path -/
noncomputable def path (i : Fin (4 * embdSize)) (j o : Fin embdSize) (w β w2 : ℝ) (b2 : Fin embdSize → ℝ) : FeedForward :=
  ⟨pt i j w (single i β), pt o i w2 b2⟩

theorem path_fwd (gelu : ℝ → ℝ) (i : Fin (4 * embdSize)) (j o : Fin embdSize) (w β w2 : ℝ) (b2 x : Fin embdSize → ℝ) :
    (path i j o w β w2 b2).fwd gelu x = single o (w2 * gelu (w * x j + β)) + b2 := by
  funext o'
  unfold path FeedForward.fwd
  dsimp only
  rw [pt_fwd, pt_fwd]
  simp [single]

section
variable {i : Fin (4 * embdSize)} {j o : Fin embdSize} {w β w2 : ℝ} {b2 : Fin embdSize → ℝ} (r : ℝ)

theorem path_set_w1 : (path i j o w β w2 b2).set r (.l1 (.weight i j)) = path i j o r β w2 b2 := by
  simp only [path, FeedForward.set]; rw [pt_set_weight]
theorem path_set_b1 : (path i j o w β w2 b2).set r (.l1 (.bias i)) = path i j o w r w2 b2 := by
  simp only [path, FeedForward.set]; rw [pt_set_bias]
theorem path_set_w2 : (path i j o w β w2 b2).set r (.l2 (.weight o i)) = path i j o w β r b2 := by
  simp only [path, FeedForward.set]; rw [pt_set_weight]
theorem path_set_b2 {s : ℝ} : (path i j o w β w2 (single o s)).set r (.l2 (.bias o)) = path i j o w β w2 (single o r) := by
  simp only [path, FeedForward.set]; rw [pt_set_bias]

end

/-- the same for a feed-forward layer -/
def FeedTest (gelu : ℝ → ℝ) (f f' : FeedForward) (l l' : LayerNorm embdSize) : Prop :=
  ∃ (x : Fin embdSize → ℝ) (o : Fin embdSize) (D : ℝ), 0 ≤ x ∧ D ≠ 0 ∧
    x + f.fwd gelu (l.fwd x) = 0 ∧ x + f'.fwd gelu (l'.fwd x) = single o D

theorem feed_of {gelu : ℝ → ℝ} {i : Fin (4 * embdSize)} {j o : Fin embdSize} {w β w2 w' β' w2' : ℝ} (l l' : LayerNorm embdSize)
    (x : Fin embdSize → ℝ) (hx : 0 ≤ x) (hD : w2' * gelu (w' * l'.fwd x j + β') ≠ w2 * gelu (w * l.fwd x j + β)) :
    ∃ b2, FeedTest gelu (path i j o w β w2 b2) (path i j o w' β' w2' b2) l l' := by
  refine ⟨- x - single o (w2 * gelu (w * l.fwd x j + β)), x, o, _, hx, sub_ne_zero.2 hD, ?_, ?_⟩
  · rw [path_fwd]
    abel
  · rw [path_fwd, ← single_sub]
    abel

theorem exists_gelu_ne {gelu : ℝ → ℝ} {a b : ℝ} (h : gelu a ≠ gelu b) : ∃ c, gelu c ≠ 0 := by
  by_cases ha : gelu a = 0
  · exact ⟨b, fun hb => h (by rw [ha, hb])⟩
  · exact ⟨a, ha⟩

theorem feed_feed {gelu : ℝ → ℝ} {a b : ℝ} (hg : gelu a ≠ gelu b) (c : FeedCoord) : ∃ f l r, FeedTest gelu f (f.set r c) l l := by
  match c with
  | .l1 (.weight i j) =>
    obtain ⟨b2, h⟩ := feed_of (gelu := gelu) (i := i) (j := j) (o := 0) (w := a) (β := 0) (w2 := 1) (w' := b) (β' := 0) (w2' := 1)
      ⟨0, 1⟩ ⟨0, 1⟩ 0 (le_refl _) (by simpa [norm_fwd] using hg.symm)
    exact ⟨_, _, b, by rw [path_set_w1]; exact h⟩
  | .l1 (.bias i) =>
    obtain ⟨b2, h⟩ := feed_of (gelu := gelu) (i := i) (j := 0) (o := 0) (w := 0) (β := a) (w2 := 1) (w' := 0) (β' := b) (w2' := 1)
      ⟨0, 0⟩ ⟨0, 0⟩ 0 (le_refl _) (by simpa using hg.symm)
    exact ⟨_, _, b, by rw [path_set_b1]; exact h⟩
  | .l2 (.weight o i) =>
    obtain ⟨d, hd⟩ := exists_gelu_ne hg
    obtain ⟨b2, h⟩ := feed_of (gelu := gelu) (i := i) (j := 0) (o := o) (w := 0) (β := d) (w2 := 0) (w' := 0) (β' := d) (w2' := 1)
      ⟨0, 0⟩ ⟨0, 0⟩ 0 (le_refl _) (by simpa using hd)
    exact ⟨_, _, 1, by rw [path_set_w2]; exact h⟩
  | .l2 (.bias o) =>
    refine ⟨path 0 0 o 0 0 0 (single o 0), ⟨0, 0⟩, 1, 0, o, 1, le_refl _, one_ne_zero, ?_, ?_⟩
    · rw [path_fwd]; simp
    · rw [path_set_b2, path_fwd]; simp

theorem feed_norm {gelu : ℝ → ℝ} {a b : ℝ} (hg : gelu a ≠ gelu b) (c : NormCoord embdSize) : ∃ f l r, FeedTest gelu f f l (l.set r c) := by
  match c with
  | .weight i =>
    have hU := normz_single_ne (o := i) (r := 1) one_ne_zero
    obtain ⟨b2, h⟩ := feed_of (gelu := gelu) (i := 0) (j := i) (o := 0) (w := (normz (single i 1) i)⁻¹) (β := 0) (w2 := 1)
      (w' := (normz (single i 1) i)⁻¹) (β' := 0) (w2' := 1) ⟨single i a, single i 0⟩ ⟨single i b, single i 0⟩ (single i 1)
      (single_nonneg i zero_le_one) (by
        rw [norm_at, norm_at]
        simp only [add_zero, one_mul, inv_mul_cancel_left₀ hU]
        exact hg.symm)
    exact ⟨_, _, b, by rw [norm_set_weight]; exact h⟩
  | .bias i =>
    obtain ⟨b2, h⟩ := feed_of (gelu := gelu) (i := 0) (j := i) (o := 0) (w := 1) (β := 0) (w2 := 1)
      (w' := 1) (β' := 0) (w2' := 1) ⟨single i 0, single i a⟩ ⟨single i 0, single i b⟩ 0 (le_refl _)
      (by rw [norm_at, norm_at]; simpa using hg.symm)
    exact ⟨_, _, b, by rw [norm_set_bias]; exact h⟩

/-! ### the encoder -/

/-- an encoder block for one sample -/
noncomputable def encStep (gelu : ℝ → ℝ) (E : Fin 150 → Fin embdSize → ℝ) (e : EncoderBlock) : Fin 150 → Fin embdSize → ℝ := fun t =>
  let n := fun t => e.ln1.fwd (E t)
  let x := E t + attn1 e.self_attention n (n t)
  x + e.ffwd.fwd gelu (e.ln2.fwd x)

/-- layers that add nothing -/
def zMHA : MultiHeadAttention := ⟨fun _ => ⟨⟨0, 0⟩, ⟨0, 0⟩, ⟨0, 0⟩⟩, ⟨0, 0⟩⟩
@[inherit_doc zMHA] def zFF : FeedForward := ⟨⟨0, 0⟩, ⟨0, 0⟩⟩
@[inherit_doc zMHA] def zLN : LayerNorm embdSize := ⟨0, 0⟩

theorem lin_zero {m n : ℕ} (x : Fin m → ℝ) : (⟨0, 0⟩ : Linear m n).fwd x = 0 := by
  funext o
  simp [Linear.fwd]

@[simp] theorem attn_zero {T : ℕ} (F : Fin T → Fin embdSize → ℝ) (q : Fin embdSize → ℝ) : attn1 zMHA F q = 0 := lin_zero _
@[simp] theorem feed_zero (gelu : ℝ → ℝ) (x : Fin embdSize → ℝ) : zFF.fwd gelu x = 0 := lin_zero _

/-- the sums of one coordinate of the encoder output differ -/
def EncTest (gelu : ℝ → ℝ) (e e' : EncoderBlock) : Prop :=
  ∃ (f : Fin embdSize → ℝ) (o : Fin embdSize), ∑ t, encStep gelu (lump f) e t o ≠ ∑ t, encStep gelu (lump f) e' t o

theorem enc_of_attn (gelu : ℝ → ℝ) {a a' : MultiHeadAttention} {l l' : LayerNorm embdSize} (f bp : Fin embdSize → ℝ) (o : Fin embdSize)
    (V V' : ℝ) (hV : V ≠ V')
    (h : ∀ t, attn1 a (fun t => l.fwd (lump f t)) (l.fwd (lump f t)) = single o V + bp)
    (h' : ∀ t, attn1 a' (fun t => l'.fwd (lump f t)) (l'.fwd (lump f t)) = single o V' + bp) :
    EncTest gelu ⟨a, zFF, l, zLN⟩ ⟨a', zFF, l', zLN⟩ := by
  refine ⟨f, o, ?_⟩
  have e1 : ∀ t, encStep gelu (lump f) ⟨a, zFF, l, zLN⟩ t o = lump f t o + (V + bp o) := by
    intro t
    simp only [encStep, feed_zero, add_zero]
    rw [h t]
    simp
  have e2 : ∀ t, encStep gelu (lump f) ⟨a', zFF, l', zLN⟩ t o = lump f t o + (V' + bp o) := by
    intro t
    simp only [encStep, feed_zero, add_zero]
    rw [h' t]
    simp
  simp only [e1, e2]
  simp only [Finset.sum_add_distrib, Finset.sum_const, Finset.card_univ, Fintype.card_fin, nsmul_eq_mul]
  intro e
  apply hV
  push_cast at e
  linarith

theorem lump_zero : lump 0 = 0 := by
  funext s i
  simp [lump]

theorem norm_lump {i : Fin embdSize} {lw ξ : ℝ} {lb : Fin embdSize → ℝ} (s : Fin 150) (k : Fin embdSize) :
    LayerNorm.fwd ⟨single i lw, lb⟩ (lump (single i ξ) s) k = (if s = 0 ∧ k = i then normz (single i ξ) i * lw else 0) + lb k := by
  rw [norm_fwd]
  dsimp only
  congr 1
  by_cases hs : s = 0
  · subst hs
    by_cases hk : k = i
    · subst hk
      have : lump (single k ξ) 0 = single k ξ := by funext i; simp [lump]
      rw [this]
      simp
    · rw [single_ne hk]
      simp [hk]
  · have : lump (single i ξ) s = 0 := by funext i; simp [lump, hs]
    rw [this, normz_zero]
    simp [hs]

theorem enc_attn (gelu : ℝ → ℝ) (c : AttnCoord) (hc : ¬ c.keyBias) :
    ∃ a l r, EncTest gelu ⟨a, zFF, l, zLN⟩ ⟨a.set r c, zFF, l, zLN⟩ := by
  have h8 := sqrt8_pos
  have hU := fun i => normz_single_ne (o := i) (r := 1) one_ne_zero
  match c, hc with
  | .head n (.key (.weight m ik)), _ =>
    obtain ⟨j, hn, hm⟩ := exists_slot n m
    refine ⟨chan1 n m ik 0 0 0 1 ik 1 0 (pt 0 j 1 0), ⟨single ik 1, 0⟩, 1, ?_⟩
    rw [chan1_set_key]
    refine enc_of_attn gelu (single ik 1) 0 0 (1 * (1 * normz (single ik 1) ik * lead ((0 * 1 + 1) * (0 * normz (single ik 1) ik) / Real.sqrt 8) + 0))
      (1 * (1 * normz (single ik 1) ik * lead ((0 * 1 + 1) * (1 * normz (single ik 1) ik) / Real.sqrt 8) + 0)) ?_ (fun t => ?_) (fun t => ?_)
    · intro e
      simp only [zero_mul, zero_add, one_mul, add_zero, zero_div] at e
      exact div_ne_zero (hU ik) h8.ne' (lead_inj (mul_left_cancel₀ (hU ik) e)).symm
    · rw [attn_lump hn hm _ (normz (single ik 1) ik) (fun s => by rw [norm_lump]; simp)]
      simp only [zero_mul]
    · rw [attn_lump hn hm _ (normz (single ik 1) ik) (fun s => by rw [norm_lump]; simp)]
      simp only [zero_mul]
  | .head n (.key (.bias m)), hc => exact absurd trivial hc
  | .head n (.query (.weight m iq)), _ =>
    obtain ⟨j, hn, hm⟩ := exists_slot n m
    obtain ⟨i, hi⟩ : ∃ i : Fin embdSize, iq ≠ i := ⟨if iq = 0 then 1 else 0, by split <;> simp_all⟩
    refine ⟨chan1 n m i 1 iq 0 0 i 1 0 (pt 0 j 1 0), ⟨single i 1, single iq 1⟩, 1, ?_⟩
    rw [chan1_set_query]
    have hq : ∀ t, LayerNorm.fwd ⟨single i 1, single iq 1⟩ (lump (single i 1) t) iq = 1 := by
      intro t; rw [norm_lump]; simp [hi]
    refine enc_of_attn gelu (single i 1) 0 0 (1 * (1 * normz (single i 1) i * lead ((0 * 1 + 0) * (1 * normz (single i 1) i) / Real.sqrt 8) + 0))
      (1 * (1 * normz (single i 1) i * lead ((1 * 1 + 0) * (1 * normz (single i 1) i) / Real.sqrt 8) + 0)) ?_ (fun t => ?_) (fun t => ?_)
    · intro e
      simp only [zero_mul, zero_add, one_mul, add_zero, zero_div] at e
      exact div_ne_zero (hU i) h8.ne' (lead_inj (mul_left_cancel₀ (hU i) e)).symm
    · rw [attn_lump hn hm _ (normz (single i 1) i) (fun s => by rw [norm_lump]; simp [single_ne hi.symm]), hq t]
    · rw [attn_lump hn hm _ (normz (single i 1) i) (fun s => by rw [norm_lump]; simp [single_ne hi.symm]), hq t]
  | .head n (.query (.bias m)), _ =>
    obtain ⟨j, hn, hm⟩ := exists_slot n m
    obtain ⟨k0⟩ : Nonempty (Fin embdSize) := ⟨0⟩
    refine ⟨chan1 n m k0 1 0 0 0 k0 1 0 (pt 0 j 1 0), ⟨single k0 1, 0⟩, 1, ?_⟩
    rw [chan1_set_query_bias]
    refine enc_of_attn gelu (single k0 1) 0 0 (1 * (1 * normz (single k0 1) k0 * lead ((0 * 1 + 0) * (1 * normz (single k0 1) k0) / Real.sqrt 8) + 0))
      (1 * (1 * normz (single k0 1) k0 * lead ((0 * 1 + 1) * (1 * normz (single k0 1) k0) / Real.sqrt 8) + 0)) ?_ (fun t => ?_) (fun t => ?_)
    · intro e
      simp only [zero_mul, zero_add, one_mul, add_zero, zero_div] at e
      exact div_ne_zero (hU k0) h8.ne' (lead_inj (mul_left_cancel₀ (hU k0) e)).symm
    · rw [attn_lump hn hm _ (normz (single k0 1) k0) (fun s => by rw [norm_lump]; simp)]
      simp only [zero_mul]
    · rw [attn_lump hn hm _ (normz (single k0 1) k0) (fun s => by rw [norm_lump]; simp)]
      simp only [zero_mul]
  | .head n (.value (.weight m iv)), _ =>
    obtain ⟨j, hn, hm⟩ := exists_slot n m
    refine ⟨chan1 n m 0 0 0 0 0 iv 0 0 (pt 0 j 1 0), ⟨0, 1⟩, 1, ?_⟩
    rw [chan1_set_value]
    refine enc_of_attn gelu 0 0 0 _ _ ?_ (fun t => attn_const (by decide) hn hm _ 1 (fun s => by simp [norm_fwd]) _)
      (fun t => attn_const (by decide) hn hm _ 1 (fun s => by simp [norm_fwd]) _)
    simp
  | .head n (.value (.bias m)), _ =>
    obtain ⟨j, hn, hm⟩ := exists_slot n m
    refine ⟨chan1 n m 0 0 0 0 0 0 0 0 (pt 0 j 1 0), ⟨0, 1⟩, 1, ?_⟩
    rw [chan1_set_value_bias]
    refine enc_of_attn gelu 0 0 0 _ _ ?_ (fun t => attn_const (by decide) hn hm _ 1 (fun s => by simp [norm_fwd]) _)
      (fun t => attn_const (by decide) hn hm _ 1 (fun s => by simp [norm_fwd]) _)
    simp
  | .proj (.weight o j), _ =>
    refine ⟨chan1 j.divNat j.modNat 0 0 0 0 0 0 0 1 (pt o j 0 0), ⟨0, 1⟩, 1, ?_⟩
    rw [chan1_set_proj, pt_set_weight]
    refine enc_of_attn gelu 0 0 o _ _ ?_ (fun t => attn_const (by decide) rfl rfl _ 1 (fun s => by simp [norm_fwd]) _)
      (fun t => attn_const (by decide) rfl rfl _ 1 (fun s => by simp [norm_fwd]) _)
    simp
  | .proj (.bias o), _ =>
    obtain ⟨j, hn, hm⟩ := exists_slot 0 0
    refine ⟨chan1 0 0 0 0 0 0 0 0 0 0 (pt o j 0 (single o 0)), ⟨0, 1⟩, 1, ?_⟩
    rw [chan1_set_proj, pt_set_bias]
    refine enc_of_attn gelu 0 0 o 0 1 zero_ne_one (fun t => ?_) (fun t => ?_)
    · rw [attn_const (by decide) hn hm _ 1 (fun s => by simp [norm_fwd])]
      simp
    · rw [attn_const (by decide) hn hm _ 1 (fun s => by simp [norm_fwd])]
      simp

theorem enc_norm1 (gelu : ℝ → ℝ) (c : NormCoord embdSize) : ∃ a l r, EncTest gelu ⟨a, zFF, l, zLN⟩ ⟨a, zFF, l.set r c, zLN⟩ := by
  have hU := fun i => normz_single_ne (o := i) (r := 1) one_ne_zero
  obtain ⟨j, hn, hm⟩ := exists_slot 0 0
  match c with
  | .weight i =>
    refine ⟨chan1 0 0 i 0 0 0 0 i 1 0 (pt 0 j 1 0), ⟨single i 0, 0⟩, 1, ?_⟩
    rw [norm_set_weight]
    refine enc_of_attn gelu (single i 1) 0 0 (1 * (1 * 0 * lead 0 + 0)) (1 * (1 * normz (single i 1) i * lead 0 + 0)) ?_
      (fun t => ?_) (fun t => ?_)
    · intro e
      have h0 := lead_zero_pos
      simp only [zero_mul, one_mul, add_zero, mul_zero] at e
      exact mul_ne_zero (hU i) h0.ne' e.symm
    · rw [attn_lump hn hm _ 0 (fun s => by rw [norm_lump]; simp)]
      simp
    · rw [attn_lump hn hm _ (normz (single i 1) i) (fun s => by rw [norm_lump]; simp)]
      simp
  | .bias i =>
    refine ⟨chan1 0 0 0 0 0 0 0 i 1 0 (pt 0 j 1 0), ⟨0, single i 0⟩, 1, ?_⟩
    rw [norm_set_bias]
    refine enc_of_attn gelu 0 0 0 _ _ ?_ (fun t => attn_const (by decide) hn hm _ 0 (fun s => by simp [norm_fwd]) _)
      (fun t => attn_const (by decide) hn hm _ 1 (fun s => by simp [norm_fwd]) _)
    simp

theorem enc_of_feed {gelu : ℝ → ℝ} {i : Fin (4 * embdSize)} {j o : Fin embdSize} {w β w2 w' β' w2' : ℝ} {b2 b2' : Fin embdSize → ℝ}
    {l l' : LayerNorm embdSize} (f : Fin embdSize → ℝ)
    (h : ∑ t, (w2 * gelu (w * l.fwd (lump f t) j + β) + b2 o) ≠ ∑ t, (w2' * gelu (w' * l'.fwd (lump f t) j + β') + b2' o)) :
    EncTest gelu ⟨zMHA, path i j o w β w2 b2, zLN, l⟩ ⟨zMHA, path i j o w' β' w2' b2', zLN, l'⟩ := by
  refine ⟨f, o, ?_⟩
  have e1 : ∀ t, encStep gelu (lump f) ⟨zMHA, path i j o w β w2 b2, zLN, l⟩ t o =
      lump f t o + (w2 * gelu (w * l.fwd (lump f t) j + β) + b2 o) := by
    intro t
    simp only [encStep, attn_zero, add_zero, path_fwd, Pi.add_apply, single_self]
  have e2 : ∀ t, encStep gelu (lump f) ⟨zMHA, path i j o w' β' w2' b2', zLN, l'⟩ t o =
      lump f t o + (w2' * gelu (w' * l'.fwd (lump f t) j + β') + b2' o) := by
    intro t
    simp only [encStep, attn_zero, add_zero, path_fwd, Pi.add_apply, single_self]
  simp only [e1, e2]
  rw [Finset.sum_add_distrib (f := fun t => lump f t o), Finset.sum_add_distrib (f := fun t => lump f t o)]
  intro e
  exact h (add_left_cancel e)

theorem sum150_ne {a b : ℝ} (h : a ≠ b) : ∑ _t : Fin 150, a ≠ ∑ _t : Fin 150, b := by
  simpa using h

theorem enc_feed {gelu : ℝ → ℝ} {a b : ℝ} (hg : gelu a ≠ gelu b) (c : FeedCoord) :
    ∃ f l r, EncTest gelu ⟨zMHA, f, zLN, l⟩ ⟨zMHA, f.set r c, zLN, l⟩ := by
  match c with
  | .l1 (.weight i j) =>
    refine ⟨path i j 0 a 0 1 0, ⟨0, 1⟩, b, ?_⟩
    rw [path_set_w1]
    refine enc_of_feed 0 ?_
    simp only [norm_fwd]
    exact sum150_ne (by simpa using hg)
  | .l1 (.bias i) =>
    refine ⟨path i 0 0 0 a 1 0, ⟨0, 1⟩, b, ?_⟩
    rw [path_set_b1]
    refine enc_of_feed 0 ?_
    simp only [zero_mul]
    exact sum150_ne (by simpa using hg)
  | .l2 (.weight o i) =>
    obtain ⟨d, hd⟩ := exists_gelu_ne hg
    refine ⟨path i 0 o 0 d 0 0, ⟨0, 1⟩, 1, ?_⟩
    rw [path_set_w2]
    refine enc_of_feed 0 ?_
    simp only [zero_mul]
    exact sum150_ne (by simpa using hd.symm)
  | .l2 (.bias o) =>
    refine ⟨path 0 0 o 0 0 0 (single o 0), ⟨0, 1⟩, 1, ?_⟩
    rw [path_set_b2]
    refine enc_of_feed 0 ?_
    simp only [zero_mul]
    exact sum150_ne (by simp)

theorem enc_norm2 {gelu : ℝ → ℝ} {a b : ℝ} (hg : gelu a ≠ gelu b) (c : NormCoord embdSize) :
    ∃ f l r, EncTest gelu ⟨zMHA, f, zLN, l⟩ ⟨zMHA, f, zLN, l.set r c⟩ := by
  match c with
  | .weight i =>
    have hU := normz_single_ne (o := i) (r := 1) one_ne_zero
    refine ⟨path 0 i 0 (normz (single i 1) i)⁻¹ 0 1 0, ⟨single i a, 0⟩, b, ?_⟩
    rw [norm_set_weight]
    refine enc_of_feed (single i 1) ?_
    have e : ∀ x : ℝ, ∀ t : Fin 150, 1 * gelu ((normz (single i 1) i)⁻¹ * LayerNorm.fwd ⟨single i x, 0⟩ (lump (single i 1) t) i + 0)
        + (0 : Fin embdSize → ℝ) 0 = (if t = 0 then gelu x - gelu 0 else 0) + gelu 0 := by
      intro x t
      rw [norm_lump]
      by_cases ht : t = 0
      · simp [ht, inv_mul_cancel_left₀ hU]
      · simp [ht]
    simp only [e]
    rw [Finset.sum_add_distrib, Finset.sum_add_distrib]
    intro h
    have := add_right_cancel h
    simp at this
    exact hg this
  | .bias i =>
    refine ⟨path 0 i 0 1 0 1 0, ⟨0, single i a⟩, b, ?_⟩
    rw [norm_set_bias]
    refine enc_of_feed 0 ?_
    simp only [norm_fwd]
    exact sum150_ne (by simpa using hg)

end MJ.Net
