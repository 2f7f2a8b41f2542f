import Verif.Proofs.Builds
import Verif.Spec.Meld
/-!
Property C152: the samples of `_build_post_tensor` for arbitrary decisions, not only those that the parser makes.
-/
namespace MJ
open Spec Code

/-- after a discard: pass, win, riichi and the offered calls -/
def Spec.AnyAllowed (a r : List Decision) (n : List NakiDecision) (k : Nat) : Prop :=
  k = 0 ∨ (k = 1 ∧ a ≠ []) ∨ (k = 2 ∧ r ≠ []) ∨ ∃ d ∈ n, Spec.callAction d k

/-- the action of the executed decision: a call rather than riichi, riichi rather than a win, else pass -/
def Spec.chosen (a r : List Decision) : Int := if headExecuted r then 2 else if headExecuted a then 1 else 0

theorem postPass_slot (v : Variant) (i : Nat) (hi : i < 2) (l : List Decision) (acc : PostAcc) :
    postPass v i l acc = .ok (if l = [] then acc else
      ⟨(acc.mask.set 0 1).set (i + 1) 1, if headExecuted l then ((i + 1 : Nat) : Int) else acc.result, acc.contains_executed || headExecuted l⟩) := by
  unfold postPass
  by_cases hl : l = []
  · rw [if_pos hl, if_pos hl]
  · rw [if_neg hl, if_neg hl]
    have : i = 0 ∨ i = 1 := by omega
    rcases this with rfl | rfl <;> cases headExecuted l <;> simp

/-- **C152.** When a sample for a call decision is built from the decisions of a player, whatever they are, the actions marked are
pass and the offered ones, the label is the executed one, and the seats after this one are left out iff something was executed. -/
theorem C152_sample {v : Variant} {a r : List Decision} {n : List NakiDecision} {acc : PostAcc} (hne : a ≠ [] ∨ r ≠ [] ∨ n ≠ [])
    (h : postLoop v 0 [a, r, n.map .naki] ⟨zeros 154, 0, false⟩ = .ok acc) :
    Allows 154 acc.mask (AnyAllowed a r n) ∧ LastExecuted Spec.callAction n (chosen a r) acc.result ∧
    acc.contains_executed = (headExecuted a || headExecuted r || n.any (·.executed)) := by
  simp only [postLoop, postPass_slot v 0 (by omega), postPass_slot v 1 (by omega), Nat.zero_add] at h
  simp only [bind_ok, Except.ok.injEq, exists_eq_left'] at h
  obtain ⟨acc3, h3, rfl⟩ := h
  generalize hacc1 : (if a = [] then (⟨zeros 154, 0, false⟩ : PostAcc) else _) = acc1 at h3
  have k1 : IsMask 154 (fun k => a ≠ [] ∧ (k = 0 ∨ k = 1)) acc1.mask ∧ acc1.result = (if headExecuted a then 1 else 0) ∧
      acc1.contains_executed = headExecuted a := by
    rw [← hacc1]
    by_cases ha : a = []
    · subst ha
      exact ⟨(isMask_zeros 154).congr (by simp), by simp [headExecuted], by simp [headExecuted]⟩
    · rw [if_neg ha]
      exact ⟨(((isMask_zeros 154).set (i := 0) (by omega)).set (i := 1) (by omega)).congr (by simp [ha]), by simp, by simp⟩
  generalize hacc2 : (if r = [] then acc1 else _) = acc2 at h3
  have k2 : IsMask 154 (fun k => (k = 0 ∧ (a ≠ [] ∨ r ≠ [])) ∨ (k = 1 ∧ a ≠ []) ∨ (k = 2 ∧ r ≠ [])) acc2.mask ∧
      acc2.result = chosen a r ∧ acc2.contains_executed = (headExecuted a || headExecuted r) := by
    rw [← hacc2]
    obtain ⟨m, e1, e2⟩ := k1
    unfold chosen
    by_cases hr : r = []
    · subst hr
      rw [if_pos rfl]
      refine ⟨m.congr (fun k => ?_), by simp [headExecuted, e1], by simp [headExecuted, e2]⟩
      constructor
      · rintro ⟨h1, h2 | h2⟩
        · exact .inl ⟨h2, .inl h1⟩
        · exact .inr (.inl ⟨h2, h1⟩)
      · rintro (⟨h1, h2 | h2⟩ | ⟨h1, h2⟩ | ⟨_, h2⟩)
        · exact ⟨h2, .inl h1⟩
        · exact absurd rfl h2
        · exact ⟨h2, .inr h1⟩
        · exact absurd rfl h2
    · rw [if_neg hr]
      refine ⟨((m.set (i := 0) (by omega)).set (i := 2) (by omega)).congr (fun k => ?_), by simp [e1], by simp [e2]⟩
      constructor
      · rintro ((⟨h1, h2 | h2⟩ | h1) | h1)
        · exact .inl ⟨h2, .inl h1⟩
        · exact .inr (.inl ⟨h2, h1⟩)
        · exact .inl ⟨h1, .inr hr⟩
        · exact .inr (.inr ⟨h1, hr⟩)
      · rintro (⟨h1, _⟩ | ⟨h1, h2⟩ | ⟨h1, _⟩)
        · exact .inl (.inr h1)
        · exact .inl (.inl ⟨h2, .inr h1⟩)
        · exact .inr h1
  obtain ⟨m, e1, e2⟩ := k2
  by_cases hn : n = []
  · subst hn
    simp only [List.map_nil, postPass, if_true, Except.ok.injEq] at h3
    subst h3
    have har : a ≠ [] ∨ r ≠ [] := by
      rcases hne with h | h | h
      · exact .inl h
      · exact .inr h
      · exact absurd rfl h
    refine ⟨m.congr (fun k => ?_), .inr ⟨by simp, e1⟩, by simp [e2]⟩
    unfold AnyAllowed
    simp [har]
  · have hn' : n.map Decision.naki ≠ [] := by simpa using hn
    simp only [postPass, if_neg hn', if_neg (by omega : ¬ (1 + 1 : Nat) = 0), if_neg (by omega : ¬ (1 + 1 : Nat) = 1), if_true] at h3
    obtain ⟨j1, j2, j3⟩ := postNaki_ok n h3 (m.set (i := 0) (by omega))
    refine ⟨j1.congr (fun k => ?_), ?_, ?_⟩
    · unfold AnyAllowed
      constructor
      · rintro (((⟨h1, _⟩ | h1 | h1) | h1) | h1)
        · exact .inl h1
        · exact .inr (.inl h1)
        · exact .inr (.inr (.inl h1))
        · exact .inl h1
        · exact .inr (.inr (.inr h1))
      · rintro (h1 | h1 | h1 | h1)
        · exact .inl (.inr h1)
        · exact .inl (.inl (.inr (.inl h1)))
        · exact .inl (.inl (.inr (.inr h1)))
        · exact .inr h1
    · rw [← e1]; exact j2
    · rw [← e2]; exact j3

/-- **C152.** Such a sample is built iff every call offered has an action number below 154. -/
theorem C152_accepts (v : Variant) (a r : List Decision) (n : List NakiDecision) :
    (∃ acc, postLoop v 0 [a, r, n.map .naki] ⟨zeros 154, 0, false⟩ = .ok acc) ↔
      ∀ d ∈ n, ∃ i, get_post_turn_filter_idx d.naki.naki_code = .ok i ∧ i < 154 := by
  have hlen : ∀ (i : Nat) (l : List Decision) (acc : PostAcc), acc.mask.length = 154 →
      (if l = [] then acc else (⟨(acc.mask.set 0 1).set (i + 1) 1, if headExecuted l then ((i + 1 : Nat) : Int) else acc.result,
        acc.contains_executed || headExecuted l⟩ : PostAcc)).mask.length = 154 := by
    intro i l acc h
    split <;> simp [h]
  simp only [postLoop, postPass_slot v 0 (by omega), postPass_slot v 1 (by omega), Nat.zero_add, bind_ok, Except.ok.injEq, exists_eq_left']
  generalize h1 : (if a = [] then (⟨zeros 154, 0, false⟩ : PostAcc) else _) = acc1
  have l1 : acc1.mask.length = 154 := by rw [← h1]; exact hlen 0 a _ (by simp [zeros])
  generalize h2 : (if r = [] then acc1 else _) = acc2
  have l2 : acc2.mask.length = 154 := by rw [← h2]; exact hlen 1 r _ l1
  by_cases hn : n = []
  · subst hn
    simp [postPass]
  · have hn' : n.map Decision.naki ≠ [] := by simpa using hn
    simp only [postPass, if_neg hn', if_neg (by omega : ¬ (1 + 1 : Nat) = 0), if_neg (by omega : ¬ (1 + 1 : Nat) = 1), if_true]
    constructor
    · rintro ⟨_, acc, h, _⟩
      have key : ∀ (ns : List NakiDecision) (acc acc' : PostAcc), acc.mask.length = 154 → postNaki v (ns.map .naki) acc = .ok acc' →
          ∀ d ∈ ns, ∃ i, get_post_turn_filter_idx d.naki.naki_code = .ok i ∧ i < 154 := by
        intro ns
        induction ns with
        | nil => intro _ _ _ _ d hd; exact absurd hd (by simp)
        | cons x ns ih =>
          intro acc acc' hl h d hd
          simp only [List.map_cons, postNaki, bind_ok] at h
          obtain ⟨i, h1, m1, h2, h3⟩ := h
          obtain ⟨hlt, rfl⟩ := markIdx_ok h2 (post_idx_nonneg h1)
          rcases List.mem_cons.1 hd with rfl | hd
          · exact ⟨i, h1, by have := post_idx_nonneg h1; omega⟩
          · refine ih _ _ ?_ h3 d hd
            split <;> simp [hl]
      exact key n _ acc (by simp [l2]) h
    · intro h
      obtain ⟨acc, ha⟩ := postNaki_total v n { acc2 with mask := acc2.mask.set 0 1 } (by simp [l2]) h
      exact ⟨acc, acc, ha, rfl⟩

/-- **C152.** A fourth kind of decision is an error. -/
theorem C152_fourth (v : Variant) (i : Nat) (hi : 3 ≤ i) (l : List Decision) (hl : l ≠ []) (acc : PostAcc) : postPass v i l acc = .error .value := by
  unfold postPass
  rw [if_neg hl]
  simp only [if_neg (by omega : ¬ i = 0), if_neg (by omega : ¬ i = 1), if_neg (by omega : ¬ i = 2)]

/-- **C152.** The number 2, which riichi would have, belongs to a call as well: riichi could not be distinguished from it after a
discard.  (The parser never offers riichi there.) -/
theorem C152_shared : ∃ c, WellFormed c ∧ get_post_turn_filter_idx c = .ok 2 := by
  refine ⟨7, ⟨by decide, ?_⟩, by rfl⟩
  have h : meldType 7 = some .chi := by decide
  rw [h]
  exact ⟨by decide, by decide⟩

end MJ
