import Verif.Props.Looks
/-!
C129: the networks can tell any two different states apart.
-/
namespace MJ.Net
open MJ.Spec

/-- a last part that reads one entry of the combined vector -/
theorem tail_apart_of {n : ℕ} (s1 : Linear n 64) (y y' : Fin n → ℝ) (x2 x2' : T2 7 4) (x3 x3' : Fin 4 → ℝ) (k : Fin (64 + 7 * 4 + 4))
    (hk : cat (cat (fun i => relu (s1.fwd y i)) (flatten x2)) x3 k ≠ cat (cat (fun i => relu (s1.fwd y' i)) (flatten x2')) x3' k) :
    ∃ (s : StateTail n) (D : ℝ), D ≠ 0 ∧ s.fwd y x2 x3 = 0 ∧ s.fwd y' x2' x3' = single 0 D := by
  generalize hc : cat (cat (fun i => relu (s1.fwd y i)) (flatten x2)) x3 = c at hk
  generalize hc' : cat (cat (fun i => relu (s1.fwd y' i)) (flatten x2')) x3' = c' at hk
  obtain ⟨w, hw⟩ : ∃ w : ℝ, 0 < w * (c' k - c k) := by
    rcases lt_or_gt_of_ne hk with h | h
    · exact ⟨1, by linarith⟩
    · exact ⟨-1, by linarith⟩
  have rd : ∀ z : Fin (64 + 7 * 4 + 4) → ℝ, (fun i => relu ((pt 0 0 1 0 : Linear embdSize embdSize).fwd
      (fun i => relu ((pt 0 k w (single 0 (-(w * c k))) : Linear _ embdSize).fwd z i)) i)) = single 0 (relu (w * (z k - c k))) := by
    intro z
    funext i
    rw [pt_fwd]
    by_cases hi : i = 0
    · subst hi
      rw [if_pos rfl, pt_fwd, if_pos rfl, single_self, single_self, one_mul, Pi.zero_apply, add_zero, relu_of_nonneg (relu_nonneg _)]
      congr 1
      ring
    · rw [if_neg hi]
      simp [single, hi, relu]
  refine ⟨⟨s1, pt 0 k w (single 0 (-(w * c k))), pt 0 0 1 0⟩, w * (c' k - c k), hw.ne', ?_, ?_⟩
  · unfold StateTail.fwd
    dsimp only
    rw [hc, rd, sub_self, mul_zero]
    simp [relu]
  · unfold StateTail.fwd
    dsimp only
    rw [hc', rd, relu_of_nonneg hw.le]

theorem flatten_ne {a b : ℕ} {x y : T2 a b} (h : x ≠ y) : flatten x ≠ flatten y := by
  intro e
  apply h
  funext m p
  obtain ⟨k, h1, h2⟩ := exists_index m p
  have := congrFun e k
  unfold flatten at this
  rwa [h1, h2] at this

theorem flatten2_ne {a b c : ℕ} {x y : T3 a b c} (h : x ≠ y) : flatten (fun m => flatten (x m)) ≠ flatten (fun m => flatten (y m)) := by
  apply flatten_ne
  intro e
  apply h
  funext m
  by_contra h1
  exact flatten_ne h1 (congrFun e m)

/-- different inputs of the last part can be told apart -/
theorem tail_apart {n : ℕ} {y y' : Fin n → ℝ} {x2 x2' : T2 7 4} {x3 x3' : Fin 4 → ℝ} (h : y ≠ y' ∨ x2 ≠ x2' ∨ x3 ≠ x3') :
    ∃ (s : StateTail n) (D : ℝ), D ≠ 0 ∧ s.fwd y x2 x3 = 0 ∧ s.fwd y' x2' x3' = single 0 D := by
  rcases h with h | h | h
  · obtain ⟨j, hj⟩ := Function.ne_iff.1 h
    obtain ⟨w, hw⟩ : ∃ w : ℝ, 0 < w * (y' j - y j) := by
      rcases lt_or_gt_of_ne hj with h | h
      · exact ⟨1, by linarith⟩
      · exact ⟨-1, by linarith⟩
    refine tail_apart_of (pt 0 j w (single 0 (-(w * y j)))) y y' x2 x2' x3 x3' (Fin.castAdd 4 (Fin.castAdd (7 * 4) 0)) ?_
    unfold cat
    rw [Fin.append_left, Fin.append_left, Fin.append_left, Fin.append_left, pt_fwd, pt_fwd, if_pos rfl, if_pos rfl, single_self,
      add_neg_cancel, relu_of_nonneg (le_refl _), relu_of_nonneg (by linarith)]
    intro e
    linarith
  · obtain ⟨j, hj⟩ := Function.ne_iff.1 (flatten_ne h)
    refine tail_apart_of ⟨0, 0⟩ y y' x2 x2' x3 x3' (Fin.castAdd 4 (Fin.natAdd 64 j)) ?_
    unfold cat
    rw [Fin.append_left, Fin.append_left, Fin.append_right, Fin.append_right]
    exact hj
  · obtain ⟨j, hj⟩ := Function.ne_iff.1 h
    refine tail_apart_of ⟨0, 0⟩ y y' x2 x2' x3 x3' (Fin.natAdd (64 + 7 * 4) j) ?_
    unfold cat
    rw [Fin.append_right, Fin.append_right]
    exact hj

/-- the same for the three inputs of the state network -/
theorem state_apart (v : Variant) {x1 x1' : T3 (chan v) 37 (width v)} {x2 x2' : T2 7 4} {x3 x3' : Fin 4 → ℝ}
    (h : x1 ≠ x1' ∨ x2 ≠ x2' ∨ x3 ≠ x3') :
    ∃ (s : StateNet v) (D : ℝ), D ≠ 0 ∧ stateNet v s x1 x2 x3 = 0 ∧ stateNet v s x1' x2' x3' = single 0 D := by
  have two : ∀ {c o : ℕ} {x1 x1' : T3 c 37 4}, (x1 ≠ x1' ∨ x2 ≠ x2' ∨ x3 ≠ x3') →
      ∃ (s : StateNet2 c o) (D : ℝ), D ≠ 0 ∧ s.fwd x1 x2 x3 = 0 ∧ s.fwd x1' x2' x3' = single 0 D := by
    intro c o x1 x1' h
    let c1 : Conv2d c 8 := ⟨0, 0⟩
    let c2 : Conv2d 8 o := ⟨0, 0⟩
    have h' : cat (flatten (fun m => flatten (fun p r => relu (c2.fwd (fun m p r => relu (c1.fwd x1 m p r)) m p r)))) (flatten (fun m => flatten (x1 m))) ≠
        cat (flatten (fun m => flatten (fun p r => relu (c2.fwd (fun m p r => relu (c1.fwd x1' m p r)) m p r)))) (flatten (fun m => flatten (x1' m))) ∨
        x2 ≠ x2' ∨ x3 ≠ x3' := by
      refine h.imp_left fun h e => flatten2_ne h (funext fun j => ?_)
      have := congrFun e (Fin.natAdd _ j)
      unfold cat at this
      rwa [Fin.append_right, Fin.append_right] at this
    obtain ⟨s, D, hD, e1, e2⟩ := tail_apart h'
    exact ⟨⟨c1, c2, s⟩, D, hD, e1, e2⟩
  match v with
  | .conv => exact two h
  | .ordered => exact two h
  | .basic =>
    let c1 : Conv1d 3 8 := ⟨0, 0⟩
    let c2 : Conv1d 8 16 := ⟨0, 0⟩
    have h' : cat (flatten (fun m p => relu (c2.fwd (fun m p => relu (c1.fwd (fun c k => x1 c k 0) m p)) m p))) (flatten (fun c k => x1 c k 0)) ≠
        cat (flatten (fun m p => relu (c2.fwd (fun m p => relu (c1.fwd (fun c k => x1' c k 0) m p)) m p))) (flatten (fun c k => x1' c k 0)) ∨
        x2 ≠ x2' ∨ x3 ≠ x3' := by
      refine h.imp_left fun h e => ?_
      have h1 : (fun (c : Fin 3) (k : Fin 37) => x1 c k 0) ≠ fun c k => x1' c k 0 := by
        intro e
        apply h
        funext c k r
        rw [show r = 0 from Subsingleton.elim (α := Fin 1) _ _]
        exact congrFun (congrFun e c) k
      refine flatten_ne h1 (funext fun j => ?_)
      have := congrFun e (Fin.natAdd _ j)
      unfold cat at this
      rwa [Fin.append_right, Fin.append_right] at this
    obtain ⟨s, D, hD, e1, e2⟩ := tail_apart h'
    exact ⟨⟨c1, c2, s⟩, D, hD, e1, e2⟩

/-- C129: in each network, for all numbers of blocks, there are parameters with which two samples that differ anywhere in their state
get different logits for a given action that both allow, whatever the events and the other samples of their batches are. -/
theorem C129_run {v : Variant} (gelu : ℝ → ℝ) (nEnc nDec : ℕ) {h : HeadName} {B B' : ℕ} (X : Input v h B) (Y : Input v h B')
    (hX : X.Good) (hY : Y.Good) (b : Fin B) (b' : Fin B') (a : Fin (actionDim h)) (ha : X.mask b a ≠ 0) (ha' : Y.mask b' a ≠ 0)
    (hne : X.x1 b ≠ Y.x1 b' ∨ X.x2 b ≠ Y.x2 b' ∨ X.x3 b ≠ Y.x3 b') :
    ∃ (p : Params v) (o : Output h B) (o' : Output h B'), p.encoder.length = nEnc ∧ p.decoder.length = nDec ∧ FixedTables p.tables ∧
      run gelu p X = .ok o ∧ run gelu p Y = .ok o' ∧ o.logits b a ≠ o'.logits b' a := by
  obtain ⟨s, D, hD, e1, e2⟩ := state_apart v hne
  let p : Params v := ⟨orderedTables, List.replicate nEnc zEnc, s, List.replicate nDec zDec, readLN,
    fun h' => if hh : h' = h then hh ▸ pt a 0 1 0 else ⟨0, 0⟩⟩
  have hh : p.heads h = pt a 0 1 0 := by simp [p]
  have run_of : ∀ {C : ℕ} (Z : Input v h C), Z.Good → ∀ c : Fin C, Z.mask c a ≠ 0 → ∃ o, run gelu p Z = .ok o ∧
      o.logits c a = normz (stateNet v s (Z.x1 c) (Z.x2 c) (Z.x3 c)) 0 := by
    intro C Z hZ c hc
    have hE : ∀ b t, ∃ x, embed v p.tables (Z.player b) t.val (Z.tokens b t) = .ok x := fun b t => embed_total v _ _ t.val t.isLt _ (hZ.types b t)
    choose E hE using hE
    have e1 : (fun b (t : Fin 150) => ((embed v p.tables (Z.player b) t.val (Z.tokens b t)).toOption).getD 0) = E := by
      funext b t
      rw [hE b t]
      rfl
    refine ⟨⟨fun b => maskedLogits (Z.mask b) (rawLogits gelu p Z E b),
      (∑ b, crossEntropy (maskedLogits (Z.mask b) (rawLogits gelu p Z E b)) (Z.y b)) / C⟩,
      run_ok.2 ⟨fun b t => ⟨E b t, hE b t⟩, hZ.binary, hZ.allows, by rw [e1], rfl⟩, ?_⟩
    unfold maskedLogits
    dsimp only
    rw [if_neg hc]
    unfold rawLogits
    rw [hh, dec_row, enc_row, pt_fwd]
    dsimp only [p]
    rw [zDec_fold]
    unfold readLN
    rw [norm_fwd]
    simp
  obtain ⟨o, ho, h1⟩ := run_of X hX b ha
  obtain ⟨o', ho', h2⟩ := run_of Y hY b' ha'
  refine ⟨p, o, o', by simp [p], by simp [p], ⟨rfl, fun _ _ => rfl, fun _ _ => rfl⟩, ho, ho', ?_⟩
  rw [h1, h2, e1, e2, normz_zero]
  exact (normz_single_ne hD).symm

end MJ.Net
