import Verif.Spec.Layers
import Verif.Proofs.Network
/-!
What the convolutions over the 37 slots put together.
-/
namespace MJ.Net
open scoped BigOperators
open Spec

/-- slot `q` of the input can have an influence on slot `p` of the output -/
def Reads (p q : Fin 37) : Prop :=
  ∃ (f : Conv1d 1 1) (x x' : T2 1 37), (∀ r, r ≠ q → x 0 r = x' 0 r) ∧ f.fwd x 0 p ≠ f.fwd x' 0 p

theorem pad1_outside {n : ℕ} {x x' : Fin n → ℝ} {p q : Fin n} (hq : q.val + 1 < p.val ∨ p.val + 1 < q.val)
    (h : ∀ r, r ≠ q → x r = x' r) (k : Fin 3) : pad1 x p k = pad1 x' p k := by
  unfold pad1
  split
  · apply h
    intro e
    have := congrArg Fin.val e
    have hk := k.2
    simp only at this
    omega
  · rfl

/-- C128: output `p` of a convolution does not depend on slots further away than one. -/
theorem C128_window {c o n : ℕ} (f : Conv1d c o) (x x' : T2 c n) (p q : Fin n) (hq : q.val + 1 < p.val ∨ p.val + 1 < q.val)
    (h : ∀ i r, r ≠ q → x i r = x' i r) (m : Fin o) : f.fwd x m p = f.fwd x' m p := by
  unfold Conv1d.fwd
  simp only [pad1_outside hq (h _)]

@[inherit_doc C128_window]
theorem C128_window2 {c o n w : ℕ} (f : Conv2d c o) (x x' : T3 c n w) (p q : Fin n)
    (hq : q.val + 1 < p.val ∨ p.val + 1 < q.val) (h : ∀ i r, r ≠ q → x i r = x' i r) (m : Fin o) (r : Fin w) :
    f.fwd x m p r = f.fwd x' m p r := by
  unfold Conv2d.fwd
  have e : ∀ i l k, pad1 (fun p' => pad1 (x i p') r l) p k = pad1 (fun p' => pad1 (x' i p') r l) p k := by
    intro i l k
    apply pad1_outside hq
    intro s hs
    rw [h i s hs]
  simp only [e]

/-- C128: the same three slot contents give the same output wherever they are. -/
theorem C128_shared {c o n : ℕ} (f : Conv1d c o) (x x' : T2 c n) (p p' : Fin n) (hp : 1 ≤ p.val ∧ p.val + 1 < n)
    (hp' : 1 ≤ p'.val ∧ p'.val + 1 < n)
    (h : ∀ i (r r' : Fin n), r.val + p'.val = r'.val + p.val → r.val ≤ p.val + 1 → p.val ≤ r.val + 1 → x i r = x' i r')
    (m : Fin o) : f.fwd x m p = f.fwd x' m p' := by
  unfold Conv1d.fwd
  have e : ∀ i k, pad1 (x i) p k = pad1 (x' i) p' k := by
    intro i k
    have hk := k.2
    unfold pad1
    rw [dif_pos (show 1 ≤ p.val + k.val ∧ p.val + k.val - 1 < n by omega),
      dif_pos (show 1 ≤ p'.val + k.val ∧ p'.val + k.val - 1 < n by omega)]
    apply h <;> simp only <;> omega
  simp only [e]

/-- C128: exactly the slot itself and the slots before and after it have an influence. -/
theorem C128_reads (p q : Fin 37) : Reads p q ↔ p = q ∨ p.val + 1 = q.val ∨ q.val + 1 = p.val := by
  constructor
  · rintro ⟨f, x, x', h, hne⟩
    by_contra hc
    apply hne
    apply C128_window f x x' p q
    · have : p.val ≠ q.val := fun e => hc (Or.inl (Fin.ext e))
      omega
    · intro i r hr
      rw [Subsingleton.elim i 0]
      exact h r hr
  · intro h
    have hk : ∃ k : Fin 3, p.val + k.val = q.val + 1 := by
      rcases h with h | h | h
      · exact ⟨1, by rw [h]; rfl⟩
      · exact ⟨2, by show p.val + 2 = _; omega⟩
      · exact ⟨0, by show p.val + 0 = _; omega⟩
    obtain ⟨k0, hk0⟩ := hk
    refine ⟨⟨fun _ _ k => if k = k0 then 1 else 0, fun _ => 0⟩, fun _ r => if r = q then 1 else 0, fun _ _ => 0, ?_, ?_⟩
    · intro r hr
      simp [hr]
    · unfold Conv1d.fwd
      simp only [ite_mul, one_mul, zero_mul, Finset.sum_ite_eq', Finset.mem_univ, if_true, add_zero,
        Finset.univ_unique, Finset.sum_const, Finset.card_singleton, one_smul]
      have h1 : pad1 (fun r : Fin 37 => if r = q then (1 : ℝ) else 0) p k0 = 1 := by
        unfold pad1
        have hq := q.2
        rw [dif_pos (show 1 ≤ p.val + k0.val ∧ p.val + k0.val - 1 < 37 by omega)]
        exact if_pos (Fin.ext (show p.val + k0.val - 1 = q.val by omega))
      have h2 : pad1 (fun _ : Fin 37 => (0 : ℝ)) p k0 = 0 := by
        unfold pad1
        split <;> rfl
      rw [h1, h2]
      norm_num

/-- C128: so the convolution does not put together just the neighbours in a suit: the nine of characters and the one of
circles are neighbours for it, as are honours, and a red five has no contact with the four and the six of its suit. -/
theorem C128_neighbours_violated : ¬ ∀ p q : Fin 37, p ≠ q → (Reads p q ↔ consecutive p.val q.val) := by
  intro h
  have h1 := (h 8 9 (by decide)).1 ((C128_reads 8 9).2 (by decide))
  unfold consecutive at h1
  revert h1
  decide

/-- C128: within the nine slots of a suit it does, and exactly twelve pairs of slots from different suits, or of honours or
red fives, are wrongly neighbours, while the contacts of the red fives are missing. -/
theorem C128_neighbours_partial (p q : Fin 37) (hne : p ≠ q) :
    (p.val < 27 → q.val < 27 → p.val / 9 = q.val / 9 → (Reads p q ↔ consecutive p.val q.val)) ∧
    (Reads p q ∧ ¬ consecutive p.val q.val ↔ (p.val + 1 = q.val ∧ (q.val = 9 ∨ q.val = 18 ∨ 27 ≤ q.val)) ∨
      (q.val + 1 = p.val ∧ (p.val = 9 ∨ p.val = 18 ∨ 27 ≤ p.val))) ∧
    (consecutive p.val q.val ∧ ¬ Reads p q ↔ 34 ≤ p.val ∧ (q.val + 1 = 9 * (p.val - 34) + 4 ∨ q.val = 9 * (p.val - 34) + 5) ∨
      34 ≤ q.val ∧ (p.val + 1 = 9 * (q.val - 34) + 4 ∨ p.val = 9 * (q.val - 34) + 5)) := by
  have hp := p.2
  have hq := q.2
  have hv : p.val ≠ q.val := fun e => hne (Fin.ext e)
  simp only [C128_reads, consecutive, Fin.ext_iff]
  generalize p.val = a at *
  generalize q.val = b at *
  refine ⟨fun h1 h2 h3 => ?_, ?_, ?_⟩
  · omega
  · omega
  · omega

end MJ.Net
