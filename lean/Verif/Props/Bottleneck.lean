import Verif.Props.Looks
import Mathlib.LinearAlgebra.FiniteDimensional.Lemmas
/-!
C178: the logits of 64 actions are not independent, those of 63 can be.
-/
namespace MJ.Net
open MJ.Spec

theorem normz_sum (x : Fin embdSize → ℝ) : ∑ i, normz x i = 0 := by
  unfold normz
  rw [← Finset.sum_div, Finset.sum_sub_distrib]
  simp [mean, embdSize]
  left
  ring

/-- what the last two layers compute, in terms of numbers whose sum is zero -/
theorem last_layers {v : Variant} {h : HeadName} {B : ℕ} (gelu : ℝ → ℝ) (p : Params v) (X : Input v h B) {o : Output h B}
    (ho : run gelu p X = .ok o) (b : Fin B) : ∃ n : Fin embdSize → ℝ, ∑ i, n i = 0 ∧ ∀ a, X.mask b a ≠ 0 →
      o.logits b a = ∑ i, (p.heads h).weight a i * (n i * p.ln_f.weight i + p.ln_f.bias i) + (p.heads h).bias a := by
  obtain ⟨-, -, -, e, -⟩ := run_ok.1 ho
  obtain ⟨z, hz⟩ := decBlocks_ln v gelu p.decoder p.ln_f
    (fun b => stateNet v p.state_net (X.x1 b) (X.x2 b) (X.x3 b))
    (encBlocks gelu p.encoder (fun b t => ((embed v p.tables (X.player b) t.val (X.tokens b t)).toOption).getD 0)) b
  refine ⟨normz z, normz_sum z, fun a ha => ?_⟩
  rw [e]
  unfold maskedLogits
  dsimp only
  rw [if_neg ha]
  unfold rawLogits
  rw [hz]
  rfl

/-- C178: in every network, whatever its parameters, the logits of any 64 actions satisfy a linear equation: there are coefficients, not all
zero, and a number such that in all batches of all sizes every sample that allows these actions satisfies it. -/
theorem C178_equation {v : Variant} {h : HeadName} (gelu : ℝ → ℝ) (p : Params v) (act : Fin 64 → Fin (actionDim h)) :
    ∃ (c : Fin 64 → ℝ) (d : ℝ), c ≠ 0 ∧ ∀ (B : ℕ) (X : Input v h B) (o : Output h B), run gelu p X = .ok o →
      ∀ b, (∀ j, X.mask b (act j) ≠ 0) → ∑ j, c j * o.logits b (act j) = d := by
  let g : Fin embdSize → (Fin 64 → ℝ) →ₗ[ℝ] ℝ := fun i => ∑ j, ((p.heads h).weight (act j) i * p.ln_f.weight i) • LinearMap.proj j
  have hg : ∀ i c, g i c = ∑ j, c j * ((p.heads h).weight (act j) i * p.ln_f.weight i) := by
    intro i c
    simp [g, mul_comm]
  let L : (Fin 64 → ℝ) →ₗ[ℝ] (Fin 63 → ℝ) := LinearMap.pi fun k => g ⟨k.val + 1, by have := k.isLt; unfold embdSize; omega⟩ - g 0
  obtain ⟨c, hc, h0⟩ := (Submodule.ne_bot_iff _).1 (LinearMap.ker_ne_bot_of_finrank_lt (f := L) (by simp))
  have hL : ∀ i, g i c = g 0 c := by
    intro i
    obtain ⟨i, hi⟩ := i
    cases i with
    | zero => rw [show (⟨0, hi⟩ : Fin embdSize) = 0 from rfl]
    | succ k =>
    have := congrFun (LinearMap.mem_ker.1 hc) ⟨k, by unfold embdSize at hi; omega⟩
    simp only [L, LinearMap.pi_apply, LinearMap.sub_apply, Pi.zero_apply] at this
    linarith
  refine ⟨c, ∑ j, c j * (∑ i, (p.heads h).weight (act j) i * p.ln_f.bias i + (p.heads h).bias (act j)), h0, ?_⟩
  intro B X o ho b hb
  obtain ⟨n, hn, hl⟩ := last_layers gelu p X ho b
  have e1 : ∀ j, c j * o.logits b (act j) = ∑ i, n i * (c j * ((p.heads h).weight (act j) i * p.ln_f.weight i)) +
      c j * (∑ i, (p.heads h).weight (act j) i * p.ln_f.bias i + (p.heads h).bias (act j)) := by
    intro j
    rw [hl _ (hb j)]
    simp only [mul_add, Finset.sum_add_distrib, Finset.mul_sum]
    rw [add_assoc]
    congr 1
    refine Finset.sum_congr rfl fun i _ => ?_
    ring
  rw [Finset.sum_congr rfl fun j _ => e1 j, Finset.sum_add_distrib, Finset.sum_comm]
  simp only [← Finset.mul_sum, ← hg, hL]
  rw [← Finset.sum_mul, hn, zero_mul, zero_add]

/-! ### fewer actions -/

theorem flat_onto {a b : ℕ} (F : Fin (a * b) → ℝ) : ∃ x : T2 a b, flatten x = F := by
  refine ⟨fun m p => F (finProdFinEquiv (m, p)), funext fun j => ?_⟩
  unfold flatten
  exact congrArg F (finProdFinEquiv.apply_symm_apply j)

theorem flat2_onto {a b c : ℕ} (F : Fin (a * (b * c)) → ℝ) : ∃ x : T3 a b c, flatten (fun m => flatten (x m)) = F := by
  obtain ⟨y, hy⟩ := flat_onto F
  choose x hx using fun m => flat_onto (y m)
  exact ⟨x, by simp only [hx]; exact hy⟩

/-- a last part that copies 64 of the numbers it gets -/
theorem tail_copy {n : ℕ} (e : Fin 64 → Fin n) :
    ∃ s : StateTail n, ∀ y x2 x3, (∀ j, 0 ≤ y (e j)) → s.fwd y x2 x3 = fun j => y (e j) := by
  refine ⟨⟨⟨fun m i => if i = e m then 1 else 0, 0⟩, ⟨fun m i => if i = Fin.castAdd 4 (Fin.castAdd (7 * 4) m) then 1 else 0, 0⟩,
    ⟨fun m i => if i = m then 1 else 0, 0⟩⟩, fun y x2 x3 hy => ?_⟩
  unfold StateTail.fwd
  funext j
  simp only [Linear.fwd, ite_mul, one_mul, zero_mul, Finset.sum_ite_eq', Finset.mem_univ, if_true, Pi.zero_apply, add_zero]
  unfold cat
  rw [Fin.append_left, Fin.append_left, relu_of_nonneg (hy j), relu_of_nonneg (hy j), relu_of_nonneg (hy j)]

/-- a state network that can yield each of the unit vectors -/
theorem state_onto (v : Variant) : ∃ s : StateNet v, ∀ k : Fin 64, ∃ x1, stateNet v s x1 0 0 = single k 1 := by
  have unit : ∀ {n : ℕ} (hn : 64 ≤ n) (k : Fin 64) (F : Fin n → ℝ), F = (fun i => if i.val = k.val then 1 else 0) →
      (fun j : Fin 64 => F (Fin.castLE hn j)) = single k 1 := by
    rintro n hn k F rfl
    funext j
    simp [single, Fin.ext_iff]
  have two : ∀ {c o : ℕ}, 64 ≤ c * (37 * 4) → ∃ s : StateNet2 c o, ∀ k : Fin 64, ∃ x1, s.fwd x1 0 0 = single k 1 := by
    intro c o hc
    obtain ⟨s, hs⟩ := tail_copy (fun j => Fin.natAdd (o * (37 * 4)) (Fin.castLE hc j))
    refine ⟨⟨⟨0, 0⟩, ⟨0, 0⟩, s⟩, fun k => ?_⟩
    obtain ⟨x1, h1⟩ := flat2_onto (a := c) (b := 37) (c := 4) (fun i => if i.val = k.val then 1 else 0)
    refine ⟨x1, ?_⟩
    unfold StateNet2.fwd
    dsimp only
    rw [hs]
    · rw [← unit hc k _ h1]
      funext j
      unfold cat
      rw [Fin.append_right]
    · intro j
      unfold cat
      rw [Fin.append_right, h1]
      positivity
  cases v with
  | conv => exact two (by norm_num)
  | ordered => exact two (by norm_num)
  | basic =>
    have hc : 64 ≤ 3 * 37 := by norm_num
    obtain ⟨s, hs⟩ := tail_copy (fun j => Fin.natAdd (16 * 37) (Fin.castLE hc j))
    refine ⟨⟨⟨0, 0⟩, ⟨0, 0⟩, s⟩, fun k => ?_⟩
    obtain ⟨x1, h1⟩ := flat_onto (a := 3) (b := 37) (fun i => if i.val = k.val then 1 else 0)
    refine ⟨fun c k _ => x1 c k, ?_⟩
    show StateNet1.fwd _ x1 0 0 = _
    unfold StateNet1.fwd
    dsimp only
    rw [hs]
    · rw [← unit hc k _ h1]
      funext j
      unfold cat
      rw [Fin.append_right]
    · intro j
      unfold cat
      rw [Fin.append_right, h1]
      positivity

/-- C178: for 63 actions there need not be an equation. -/
theorem C178_sharp (v : Variant) (gelu : ℝ → ℝ) (nEnc nDec : ℕ) {h : HeadName} (act : Fin 63 → Fin (actionDim h)) (hact : Function.Injective act) :
    ∃ p : Params v, p.encoder.length = nEnc ∧ p.decoder.length = nDec ∧ FixedTables p.tables ∧ ∀ (c : Fin 63 → ℝ) (d : ℝ),
      (∀ (B : ℕ) (X : Input v h B) (o : Output h B), run gelu p X = .ok o →
        ∀ b, (∀ j, X.mask b (act j) ≠ 0) → ∑ j, c j * o.logits b (act j) = d) → c = 0 := by
  classical
  obtain ⟨s, hs⟩ := state_onto v
  choose x1 hx using hs
  let p : Params v := ⟨orderedTables, List.replicate nEnc zEnc, s, List.replicate nDec zDec, readLN,
    fun h' => if hh : h' = h then hh ▸ ⟨fun a i => if ∃ j : Fin 63, act j = a ∧ i = Fin.castLE (by norm_num) j then 1 else 0, 0⟩ else ⟨0, 0⟩⟩
  have hh : p.heads h = ⟨fun a i => if ∃ j : Fin 63, act j = a ∧ i = Fin.castLE (by norm_num) j then 1 else 0, 0⟩ := by simp [p]
  refine ⟨p, by simp [p], by simp [p], ⟨rfl, fun _ _ => rfl, fun _ _ => rfl⟩, fun c d heq => ?_⟩
  have hpos : 0 < actionDim h := by cases h <;> norm_num
  let X : Fin 64 → Input v h 1 := fun k => ⟨fun _ _ => BitVec.ofNat 64 padId, fun _ => x1 k, 0, 0, fun _ _ => 1, fun _ => ⟨0, hpos⟩, fun _ => 0⟩
  have val : ∀ k : Fin 64, ∑ j : Fin 63, c j * normz (single k 1 : Fin embdSize → ℝ) (Fin.castLE (by norm_num) j) = d := by
    intro k
    have hE : ∀ (b : Fin 1) (t : Fin 150), ∃ x, embed v p.tables ((X k).player b) t.val ((X k).tokens b t) = .ok x :=
      fun b t => embed_total v _ _ t.val t.isLt _ (by unfold TypeOk; dsimp only [X]; decide)
    let E : T3 1 150 embdSize := fun b t => ((embed v p.tables ((X k).player b) t.val ((X k).tokens b t)).toOption).getD 0
    have := heq 1 (X k) ⟨fun b => maskedLogits ((X k).mask b) (rawLogits gelu p (X k) E b),
      (∑ b, crossEntropy (maskedLogits ((X k).mask b) (rawLogits gelu p (X k) E b)) ((X k).y b)) / (1 : ℕ)⟩
      (run_ok.2 ⟨hE, fun _ _ => .inr rfl, fun _ => ⟨⟨0, hpos⟩, one_ne_zero⟩, rfl, rfl⟩) 0 (fun _ => one_ne_zero)
    rw [← this]
    refine Finset.sum_congr rfl fun j _ => ?_
    congr 1
    unfold maskedLogits
    dsimp only
    rw [if_neg (by simp [X])]
    unfold rawLogits
    rw [hh, dec_row]
    dsimp only [p]
    rw [zDec_fold, show stateNet v s ((X k).x1 0) ((X k).x2 0) ((X k).x3 0) = single k 1 from hx k]
    unfold Linear.fwd readLN
    have : ∀ i : Fin embdSize, (∃ j' : Fin 63, act j' = act j ∧ i = Fin.castLE (by norm_num) j') ↔ i = Fin.castLE (by norm_num) j := by
      intro i
      constructor
      · rintro ⟨j', h1, h2⟩
        rw [h2, hact h1]
      · intro h1
        exact ⟨j, rfl, h1⟩
    simp only [this, norm_fwd]
    simp
  have hv : ∀ k : Fin 64, variance (single k 1 : Fin embdSize → ℝ) = variance (single 63 1 : Fin embdSize → ℝ) ∧
      mean (single k 1 : Fin embdSize → ℝ) = 1 / 64 := by
    have hm : ∀ k : Fin 64, mean (single k 1 : Fin embdSize → ℝ) = 1 / 64 := by
      intro k
      simp [mean, single, embdSize]
    intro k
    refine ⟨?_, hm k⟩
    unfold variance
    rw [hm, hm]
    congr 1
    refine Fintype.sum_equiv (Equiv.swap k 63) _ _ fun i => ?_
    have : (single (63 : Fin 64) 1 : Fin 64 → ℝ) (Equiv.swap k 63 i) = single k 1 i := by
      unfold single
      congr 1
      rw [Equiv.swap_apply_eq_iff, Equiv.swap_apply_right]
    rw [this]
  funext j
  have a1 := val (Fin.castLE (by norm_num) j)
  have a2 := val 63
  rw [← a2] at a1
  unfold normz at a1
  simp only [(hv _).1, (hv _).2] at a1
  rw [← sub_eq_zero, ← Finset.sum_sub_distrib, Finset.sum_eq_single j] at a1
  · have hq := sqrt_var_pos (single 63 1 : Fin embdSize → ℝ)
    have h63 : single (63 : Fin embdSize) 1 (Fin.castLE (by norm_num) j : Fin embdSize) = 0 := by
      apply single_ne
      intro e
      have := congrArg Fin.val e
      have := j.isLt
      simp at *
      omega
    rw [h63, single_self, ← mul_sub, ← sub_div] at a1
    rcases mul_eq_zero.1 a1 with h1 | h1
    · exact h1
    · rw [div_eq_zero_iff] at h1
      rcases h1 with h1 | h1
      · norm_num at h1
      · exact absurd h1 hq.ne'
  · intro i _ hi
    have h63 : single (63 : Fin embdSize) 1 (Fin.castLE (by norm_num) i : Fin embdSize) = 0 := by
      apply single_ne
      intro e
      have := congrArg Fin.val e
      have := i.isLt
      simp at *
      omega
    have hij : single (Fin.castLE (by norm_num) j : Fin embdSize) 1 (Fin.castLE (by norm_num) i : Fin embdSize) = 0 := by
      apply single_ne
      intro e
      exact hi (Fin.castLE_injective _ e)
    rw [h63, hij, sub_self]
  · simp

/-- the actions of the call head that `C178_equation` and `C178_sharp` speak of, and a sample that allows all of them -/
example (v : Variant) (gelu : ℝ → ℝ) (p : Params v) : Function.Injective (Fin.castLE (by norm_num : 64 ≤ actionDim .post)) ∧
    ∃ (X : Input v .post 1) (o : Output .post 1), run gelu p X = .ok o ∧ ∀ a, X.mask 0 a ≠ 0 := by
  let X := onesInput v .post (fun _ => BitVec.ofNat 64 padId) 0
  have hE : ∀ (b : Fin 1) (t : Fin 150), ∃ x, embed v p.tables (X.player b) t.val (X.tokens b t) = .ok x :=
    fun b t => embed_total v _ _ t.val t.isLt _ (by unfold TypeOk; dsimp only [X, onesInput]; decide)
  let L : T2 1 (actionDim .post) := fun b => maskedLogits (X.mask b)
    (rawLogits gelu p X (fun b t => ((embed v p.tables (X.player b) t.val (X.tokens b t)).toOption).getD 0) b)
  exact ⟨Fin.castLE_injective _, X, ⟨L, (∑ b, crossEntropy (L b) (X.y b)) / (1 : ℕ)⟩,
    run_ok.2 ⟨hE, fun _ _ => .inr rfl, fun _ => ⟨0, one_ne_zero⟩, rfl, rfl⟩, fun _ => one_ne_zero⟩

end MJ.Net
