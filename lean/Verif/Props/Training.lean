import Verif.Props.Loader
import Verif.Props.Tensors
import Verif.Model.Train
/-!
C82 (second half), C83, C84: optimiser steps, validation, and where an iteration over the data raises.
-/
namespace MJ

/-! ### C83 -/

/-- C83: an iteration that does not raise makes one step per loss, and validates exactly at the batches `k` with
`k * batch_size % 1000 < batch_size`. -/
theorem C83_steps {bs : Nat} {val : List (Except PyErr Nat)} : ∀ (batches : List (Except PyErr Nat)) (k step : Nat)
    (vals : List Nat) (r : Nat × List Nat), epochLoop bs val batches k step vals = .ok r →
    ∃ losses : List Nat, batches = losses.map .ok ∧ r.1 = step + losses.sum ∧
      r.2 = vals ++ (List.range' k batches.length).filter (fun j => decide (j * bs % 1000 < bs)) := by
  intro batches
  induction batches with
  | nil =>
    intro k step vals r h
    simp only [epochLoop, Except.ok.injEq] at h
    subst h
    exact ⟨[], rfl, by simp, by simp⟩
  | cons b batches ih =>
    intro k step vals r h
    unfold epochLoop at h
    cases b with
    | error e => simp [bind, Except.bind] at h
    | ok n =>
      by_cases hv : (k * bs) % 1000 < bs
      · simp only [bind, Except.bind, if_pos hv] at h
        cases he : estimateLoss bs val with
        | error e => rw [he] at h; simp at h
        | ok u =>
          rw [he] at h
          simp only at h
          split at h
          · cases h
          · obtain ⟨losses, rfl, h2, h3⟩ := ih _ _ _ _ h
            refine ⟨n :: losses, rfl, by simp [h2]; omega, ?_⟩
            rw [h3, List.length_cons, List.range'_succ, List.filter_cons_of_pos (by simpa using hv)]
            simp
      · simp only [bind, Except.bind, if_neg hv] at h
        obtain ⟨losses, rfl, h2, h3⟩ := ih _ _ _ _ h
        refine ⟨n :: losses, rfl, by simp [h2]; omega, ?_⟩
        rw [h3, List.length_cons, List.range'_succ, List.filter_cons_of_neg (by simpa using hv)]

/-- C83: for the batch sizes in use, that is the first batch and then every 1000 games. -/
theorem C83_every_1000 : ∀ m ∈ trainable, m.2 ∣ 1000 ∧ 0 < m.2 ∧
    ∀ k, (k * m.2 % 1000 < m.2 ↔ 1000 ∣ k * m.2) := by
  have key : ∀ b, 0 < b → b ∣ 1000 → ∀ k, (k * b % 1000 < b ↔ 1000 ∣ k * b) := by
    rintro b hb ⟨c, hc⟩ k
    rw [hc, Nat.mul_comm k b, Nat.mul_mod_mul_left]
    constructor
    · intro h
      have : k % c = 0 := by
        apply Classical.byContradiction
        intro hne
        have : b * 1 ≤ b * (k % c) := Nat.mul_le_mul_left b (Nat.pos_of_ne_zero hne)
        omega
      exact Nat.mul_dvd_mul_left b (Nat.dvd_of_mod_eq_zero this)
    · intro h
      have : k % c = 0 := Nat.mod_eq_zero_of_dvd (Nat.dvd_of_mul_dvd_mul_left hb h)
      rw [this]; simpa using hb
  intro m hm
  have h : m.2 ∣ 1000 ∧ 0 < m.2 := by
    revert m hm
    decide +kernel
  exact ⟨h.1, h.2, key m.2 h.2 h.1⟩

/-! ### C84 -/

theorem estimateLoop_used {bs : Nat} : ∀ (batches : List (Except PyErr Nat)) (k num : Nat) (r : Nat × Nat),
    estimateLoop bs batches k num = .ok r →
    ∃ (losses : List Nat) (rest : List (Except PyErr Nat)), batches = losses.map .ok ++ rest ∧ r = (k + losses.length, num + losses.sum) ∧
      (rest ≠ [] → 0 < losses.length ∧ 20 ≤ (k + losses.length - 1) * bs) ∧
      ∀ j, j + 1 < losses.length → (k + j) * bs < 20 := by
  intro batches
  induction batches with
  | nil =>
    intro k num r h
    simp only [estimateLoop, Except.ok.injEq] at h
    subst h
    exact ⟨[], [], rfl, by simp, by simp, by simp⟩
  | cons b batches ih =>
    intro k num r h
    unfold estimateLoop at h
    cases b with
    | error e => simp [bind, Except.bind] at h
    | ok n =>
      simp only [bind, Except.bind] at h
      split at h
      · rename_i hge
        simp only [Except.ok.injEq] at h
        subst h
        exact ⟨[n], batches, rfl, by simp, fun _ => ⟨by simp, by simpa using hge⟩, by simp⟩
      · rename_i hlt
        obtain ⟨losses, rest, rfl, h2, h3, h4⟩ := ih _ _ _ h
        refine ⟨n :: losses, rest, rfl, by rw [h2]; simp; omega, ?_, ?_⟩
        · intro hr
          obtain ⟨h5, h6⟩ := h3 hr
          refine ⟨by simp, ?_⟩
          rw [show k + (n :: losses).length - 1 = k + 1 + losses.length - 1 by simp only [List.length_cons]; omega]
          exact h6
        · intro j hj
          cases j with
          | zero => simpa using hlt
          | succ j =>
            have := h4 j (by simpa using hj)
            rwa [show k + (j + 1) = k + 1 + j by omega]

/-- C84: a validation uses the first batches of the validation loader, in order: all of them, or just enough for the
game count at the start of the last one to reach 20; nothing after that matters. -/
theorem C84_validation {bs : Nat} (hbs : 0 < bs) {batches : List (Except PyErr Nat)} {used : Nat}
    (h : estimateLoss bs batches = .ok used) :
    used = min batches.length ((20 + bs - 1) / bs + 1) ∧
    (∀ b ∈ batches.take used, ∃ n, b = .ok n) ∧ (∃ n, .ok (n + 1) ∈ batches.take used) ∧
    ∀ rest, 20 ≤ (used - 1) * bs → 0 < used → estimateLoss bs (batches.take used ++ rest) = .ok used := by
  unfold estimateLoss at h
  simp only [bind, Except.bind] at h
  cases he : estimateLoop bs batches 0 0 with
  | error e => rw [he] at h; cases h
  | ok r =>
    rw [he] at h
    obtain ⟨losses, rest, rfl, rfl, h3, h4⟩ := estimateLoop_used _ _ _ _ he
    simp only [Nat.zero_add] at h h3 h4
    split at h
    · cases h
    · rename_i hne
      simp only [Except.ok.injEq] at h
      subst h
      have htake : (losses.map (Except.ok (ε := PyErr)) ++ rest).take losses.length = losses.map .ok := by
        rw [List.take_left' (by simp)]
      refine ⟨?_, ?_, ?_, ?_⟩
      · simp only [List.length_append, List.length_map]
        have hup : losses.length ≤ (20 + bs - 1) / bs + 1 := by
          rcases Nat.lt_or_ge losses.length 2 with h2 | h2
          · have := Nat.zero_le ((20 + bs - 1) / bs)
            generalize (20 + bs - 1) / bs = q at *
            omega
          · have h5 := h4 (losses.length - 2) (by omega)
            have : losses.length - 2 < (20 + bs - 1) / bs := by
              rw [Nat.lt_iff_add_one_le, Nat.le_div_iff_mul_le hbs, Nat.add_mul]
              omega
            omega
        by_cases hr : rest = []
        · subst hr; simp only [List.length_nil]; omega
        · obtain ⟨h5, h6⟩ := h3 hr
          have : (20 + bs - 1) / bs ≤ losses.length - 1 := by
            rw [Nat.div_le_iff_le_mul_add_pred hbs, Nat.mul_comm]
            omega
          omega
      · rw [htake]
        intro b hb
        obtain ⟨n, _, rfl⟩ := List.mem_map.1 hb
        exact ⟨n, rfl⟩
      · rw [htake]
        have : ∃ n ∈ losses, n ≠ 0 := by
          apply Classical.byContradiction
          intro hall
          apply hne
          rw [List.sum_eq_zero_iff_forall_eq_nat]
          intro x hx
          apply Classical.byContradiction
          intro hx0
          exact hall ⟨x, hx, hx0⟩
        obtain ⟨n, hn, h0⟩ := this
        exact ⟨n - 1, List.mem_map.2 ⟨n, hn, by congr 1; omega⟩⟩
      · intro rest' hge hpos
        rw [htake]
        have run : ∀ (l : List Nat) (k num : Nat), l ≠ [] → 20 ≤ (k + l.length - 1) * bs →
            (∀ j, j + 1 < l.length → (k + j) * bs < 20) →
            estimateLoop bs (l.map .ok ++ rest') k num = .ok (k + l.length, num + l.sum) := by
          intro l
          induction l with
          | nil => intro k num h; exact absurd rfl h
          | cons n l ih =>
            intro k num _ h1 h2
            simp only [List.map_cons, List.cons_append]
            unfold estimateLoop
            simp only [bind, Except.bind]
            by_cases hl : l = []
            · subst hl
              rw [if_pos (by simpa using h1)]
              simp
            · have hlen : 0 < l.length := List.length_pos_iff.2 hl
              have h0 := h2 0 (by simp; omega)
              rw [if_neg (by simp only [Nat.add_zero] at h0; omega)]
              rw [ih (k + 1) (num + n) hl (by rw [show k + 1 + l.length - 1 = k + (n :: l).length - 1 by simp only [List.length_cons]; omega]; exact h1)
                (fun j hj => by
                  have := h2 (j + 1) (by simp; omega)
                  rwa [show k + (j + 1) = k + 1 + j by omega] at this)]
              simp
              omega
        unfold estimateLoss
        simp only [bind, Except.bind]
        rw [run losses 0 0 (by intro h; subst h; simp at hpos) (by simpa using hge) (by simpa using h4)]
        simp [hne]

/-- C84: with the batch sizes in use, 21 to 25 games at most are used: 25 with batch size 5, 24 with 4, 22 with 2, 21
with 1. -/
theorem C84_games : trainable.map (fun m => (m.2, ((20 + m.2 - 1) / m.2 + 1) * m.2)) =
    [(5, 25), (5, 25), (2, 22), (2, 22), (4, 24), (2, 22), (2, 22), (1, 21), (1, 21)] := by decide +kernel

/-- C84: a validation without any loss raises ZeroDivisionError. -/
theorem C84_no_loss (bs n : Nat) : estimateLoss bs (List.replicate n (.ok 0)) = .error .zeroDivision := by
  have : ∀ n k, ∃ u, estimateLoop bs (List.replicate n (.ok 0)) k 0 = .ok (u, 0) := by
    intro n
    induction n with
    | zero => intro k; exact ⟨k, rfl⟩
    | succ n ih =>
      intro k
      rw [List.replicate_succ]
      unfold estimateLoop
      simp only [bind, Except.bind]
      split
      · exact ⟨k + 1, rfl⟩
      · exact ih (k + 1)
  obtain ⟨u, hu⟩ := this n 0
  unfold estimateLoss
  rw [hu]
  rfl

/-! ### C82 -/

/-- how many losses `forward` yields for a batch of games: one per head with samples
(MahjongAI/agents/transformer.py:51-104, MahjongAI/agents/transformer_conv_ordered.py:50-107) -/
def batchLosses (v : Variant) (games : List (List RoundSt)) : Except PyErr Nat := do
  let (d, c, p) ← prepareBatches v (gameTurns games) (gameTokens games)
  .ok ([d, c, p].filter (fun b => !b.encodings.isEmpty)).length

/-- C82: an empty batch makes an iteration of the basic and the convolutional models raise; the ordered model
yields no loss for it. -/
theorem C82_empty_batch_raises (v : Variant) (bs : Nat) (val : List (Except PyErr Nat)) (batches : List (List (List RoundSt)))
    (h : [] ∈ batches) : (v ≠ .ordered → ∀ k step vals r, epochLoop bs val (batches.map (batchLosses v)) k step vals ≠ .ok r) ∧
    (v = .ordered → batchLosses v [] = .ok 0) := by
  constructor
  · intro hv k step vals r hok
    obtain ⟨losses, h1, _⟩ := C83_steps _ _ _ _ _ hok
    have : batchLosses v [] ∈ batches.map (batchLosses v) := List.mem_map.2 ⟨[], h, rfl⟩
    rw [h1] at this
    obtain ⟨n, _, hn⟩ := List.mem_map.1 this
    cases v with
    | basic => cases hn
    | conv => cases hn
    | ordered => exact hv rfl
  · rintro rfl
    rfl

end MJ
