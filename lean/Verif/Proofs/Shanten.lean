import Verif.Model.Shanten
import Verif.Spec.Hand
/-!
The shanten search: every call restores everything but `best`, and `best` becomes the minimum of its old value and the
values at the ends of the branches.
-/
namespace MJ
open Spec

/-! ### Editing the hand -/

theorem bump_length (h : List Int) (i : Nat) (k : Int) : (bump h i k).length = h.length := by
  simp [bump]

theorem bump_getElem? (h : List Int) (i : Nat) (k : Int) (j : Nat) :
    (bump h i k)[j]? = h[j]?.map (fun x => if i = j then x + k else x) := by
  unfold bump
  rw [List.getElem?_modify]
  cases h[j]? <;> rfl

theorem bump_cancel (h : List Int) (i : Nat) (a b : Int) (e : a + b = 0) : bump (bump h i a) i b = h := by
  apply List.ext_getElem?
  intro j
  rw [bump_getElem?, bump_getElem?]
  cases h[j]? with
  | none => rfl
  | some x =>
    simp only [Option.map_some, Option.some.injEq]
    split <;> omega

theorem bump3_getElem? (h : List Int) (i : Nat) (k : Int) (j : Nat) :
    (bump3 h i k)[j]? = h[j]?.map (fun x => if j = i ∨ j = i + 1 ∨ j = i + 2 then x + k else x) := by
  unfold bump3
  rw [bump_getElem?, bump_getElem?, bump_getElem?]
  cases h[j]? with
  | none => rfl
  | some x =>
    simp only [Option.map_some, Option.some.injEq]
    (repeat' split) <;> omega

theorem bump3_cancel (h : List Int) (i : Nat) : bump3 (bump3 h i (-1)) i 1 = h := by
  apply List.ext_getElem?
  intro j
  rw [bump3_getElem?, bump3_getElem?]
  cases h[j]? with
  | none => rfl
  | some x =>
    simp only [Option.map_some, Option.some.injEq]
    split <;> omega

theorem taatsu_cancel (h : List Int) (i w : Nat) :
    bump (bump3 (bump (bump3 h i (-1)) (i + w) 1) i 1) (i + w) (-1) = h := by
  apply List.ext_getElem?
  intro j
  rw [bump_getElem?, bump3_getElem?, bump_getElem?, bump3_getElem?]
  cases h[j]? with
  | none => rfl
  | some x =>
    simp only [Option.map_some, Option.some.injEq]
    (repeat' split) <;> omega

theorem at37_bump {h : List Int} {i : Nat} (hi : i < h.length) (k : Int) (j : Nat) :
    at37 (bump h i k) j = if j = i then at37 h j + k else at37 h j := by
  unfold at37
  rw [List.getD_eq_getElem?_getD, List.getD_eq_getElem?_getD, bump_getElem?]
  by_cases e : j = i
  · subst e
    simp [List.getElem?_eq_getElem hi]
  · rw [if_neg e]
    have : ¬ i = j := fun h => e h.symm
    simp only [if_neg this]
    cases h[j]? <;> rfl

/-! ### Positions -/

/-- the part of the solver that a call restores and that decides its result -/
structure Pos where
  hand : List Int
  m : Int
  t : Int
  p : Int
  tune : Int

def Solver.pos (s : Solver) : Pos := ⟨s.hand, s.n_mentsu, s.n_taatsu, s.n_toitsu, s.tune⟩

/-- take a block out of the hand -/
def Pos.add (q : Pos) : Block → Pos
  | .shuntsu i => { q with hand := bump3 q.hand i (-1), m := q.m + 1 }
  | .koutsu i => { q with hand := bump q.hand i (-3), m := q.m + 1 }
  | .toitsu i => { q with hand := bump q.hand i (-2), p := q.p + 1 }
  | .taatsu i w => { q with hand := bump (bump3 q.hand i (-1)) (i + w) 1, t := q.t + 1 }
  | .single i tune => { q with hand := bump q.hand i (-1), tune := if tune then q.tune + 1 else q.tune }

def Pos.addAll (q : Pos) (B : List Block) : Pos := B.foldl Pos.add q

/-- the value of a finished branch -/
def Pos.value (q : Pos) : Int := distance q.m q.t q.p (decide (q.tune ≠ 0))

/-- the branches of `process_shuntsu` at kind `i` -/
def shunBranches (h : List Int) (i : Nat) (tune : Bool) : List Block :=
  (if i % 9 < 7 ∧ at37 h (i + 2) ≠ 0 then
      (if at37 h (i + 1) ≠ 0 then [Block.shuntsu i] else []) ++ [Block.taatsu i 1] else []) ++
  ((if i % 9 < 8 ∧ at37 h (i + 1) ≠ 0 then [Block.taatsu i 2] else []) ++ [Block.single i tune])

/-- the branches of `solve_normal` at kind `i`: which blocks are taken, and from where the search continues -/
def branches (h : List Int) (i : Nat) : List (List Block × Nat) :=
  if at37 h i = 4 then
    (shunBranches h i true).map (fun b => ([.koutsu i, b], i)) ++ [([.koutsu i], i + 1)] ++
      (shunBranches h i false).map (fun b => ([.toitsu i, b], i))
  else if at37 h i = 3 then [([.koutsu i], i + 1), ([.toitsu i], i)]
  else if at37 h i = 2 then ([.toitsu i], i + 1) :: (shunBranches h i false).map (fun b => ([b], i))
  else if at37 h i = 1 then (shunBranches h i false).map (fun b => ([b], i))
  else []

/-- the next kind with tiles, from `idx` on -/
def nextIdx (h : List Int) (idx : Nat) : Nat := skipEmpty h (27 - idx) idx

/-- `v` is the value at the end of some branch of the search from `idx` -/
inductive Leaf : Nat → Pos → Int → Prop
  | done {idx : Nat} {q : Pos} (h : nextIdx q.hand idx = 27) : Leaf idx q q.value
  | step {idx : Nat} {q : Pos} {v : Int} {br : List Block × Nat} (h : nextIdx q.hand idx ≠ 27)
      (hb : br ∈ branches q.hand (nextIdx q.hand idx)) (hl : Leaf br.2 (q.addAll br.1) v) : Leaf idx q v

/-- everything but `best` is as before; `best` is the minimum of its old value and the values in `L` -/
structure Acc (s : Solver) (L : Int → Prop) (s' : Solver) : Prop where
  same : s' = { s with best := s'.best }
  le : s'.best ≤ s.best
  min : ∀ v, L v → s'.best ≤ v
  attained : s'.best = s.best ∨ L s'.best

theorem Acc.pos {s s' : Solver} {L : Int → Prop} (h : Acc s L s') : s'.pos = s.pos := by
  rw [h.same]; rfl

theorem Acc.hand {s s' : Solver} {L : Int → Prop} (h : Acc s L s') : s'.hand = s.hand := by
  rw [h.same]

theorem Acc.refl (s : Solver) : Acc s (fun _ => False) s := ⟨rfl, Int.le_refl _, fun _ h => h.elim, .inl rfl⟩

theorem Acc.trans {s s1 s2 : Solver} {L1 L2 : Int → Prop} (h1 : Acc s L1 s1) (h2 : Acc s1 L2 s2) :
    Acc s (fun v => L1 v ∨ L2 v) s2 := by
  refine ⟨?_, Int.le_trans h2.le h1.le, ?_, ?_⟩
  · have e1 := h1.same
    have e2 := h2.same
    rw [e2, e1]
  · rintro v (h | h)
    · exact Int.le_trans h2.le (h1.min v h)
    · exact h2.min v h
  · rcases h2.attained with h | h
    · rcases h1.attained with h' | h'
      · exact .inl (h.trans h')
      · rw [h]; exact .inr (.inl h')
    · exact .inr (.inr h)

theorem Acc.congr {s s' : Solver} {L L' : Int → Prop} (h : Acc s L s') (e : ∀ v, L v ↔ L' v) : Acc s L' s' :=
  ⟨h.same, h.le, fun v hv => h.min v ((e v).2 hv), h.attained.imp id (e _).1⟩

/-- a correct recursive call -/
def Good (rec : Nat → Solver → Option Solver) : Prop :=
  ∀ idx s s', rec idx s = some s' → Acc s (Leaf idx s.pos) s'

/-! ### One block taken and put back -/

theorem acc_shuntsu {rec : Nat → Solver → Option Solver} (hg : Good rec) {idx i : Nat} {s s1 : Solver}
    (h : rec idx (s.addShuntsu i) = some s1) : Acc s (Leaf idx (s.pos.add (.shuntsu i))) (s1.removeShuntsu i) := by
  have := hg _ _ _ h
  refine ⟨?_, this.le, this.min, this.attained⟩
  rw [this.same]
  simp only [Solver.removeShuntsu, Solver.addShuntsu, bump3_cancel]
  congr 1
  omega

theorem acc_taatsu {rec : Nat → Solver → Option Solver} (hg : Good rec) {idx i w : Nat} {s s1 : Solver}
    (h : rec idx (s.addTaatsu i w) = some s1) : Acc s (Leaf idx (s.pos.add (.taatsu i w))) (s1.removeTaatsu i w) := by
  have := hg _ _ _ h
  refine ⟨?_, this.le, this.min, this.attained⟩
  rw [this.same]
  simp only [Solver.removeTaatsu, Solver.addTaatsu, taatsu_cancel]
  congr 1
  omega

theorem acc_kuttsuki {rec : Nat → Solver → Option Solver} (hg : Good rec) {idx i : Nat} {tune : Bool} {s s1 : Solver}
    (h : rec idx (s.addKuttsuki i tune) = some s1) :
    Acc s (Leaf idx (s.pos.add (.single i tune))) (s1.removeKuttsuki i tune) := by
  have := hg _ _ _ h
  refine ⟨?_, this.le, this.min, this.attained⟩
  rw [this.same]
  simp only [Solver.removeKuttsuki, Solver.addKuttsuki]
  rw [bump_cancel _ _ _ _ (by omega)]
  congr 1
  · omega
  · split <;> omega

/-- the call with a block already taken, which is put back later -/
theorem acc_toitsu {L : Int → Prop} {i : Nat} {s s1 : Solver} (h : Acc (s.addToitsu i) L s1) :
    Acc s L (s1.removeToitsu i) := by
  refine ⟨?_, h.le, h.min, h.attained⟩
  rw [h.same]
  simp only [Solver.removeToitsu, Solver.addToitsu]
  rw [bump_cancel _ _ _ _ (by omega)]
  congr 1
  omega

theorem acc_koutsu {L : Int → Prop} {i : Nat} {s s1 : Solver} (h : Acc (s.addKoutsu i) L s1) :
    Acc s L (s1.removeKoutsu i) := by
  refine ⟨?_, h.le, h.min, h.attained⟩
  rw [h.same]
  simp only [Solver.removeKoutsu, Solver.addKoutsu]
  rw [bump_cancel _ _ _ _ (by omega)]
  congr 1
  omega

/-! ### The search -/

theorem bind_some {α β : Type} {x : Option α} {f : α → Option β} {b : β} :
    (x >>= f) = some b ↔ ∃ a, x = some a ∧ f a = some b := by
  cases x <;> simp [bind]

theorem processShuntsu_acc {rec : Nat → Solver → Option Solver} (hg : Good rec) {idx : Nat} {tune : Bool}
    {s s' : Solver} (h : processShuntsu rec idx tune s = some s') :
    Acc s (fun v => ∃ b ∈ shunBranches s.hand idx tune, Leaf idx (s.pos.add b) v) s' := by
  unfold processShuntsu at h
  simp only [bind_some] at h
  obtain ⟨s1, h1, s2, h2, s3, h3, h4⟩ := h
  have a1 : Acc s (fun v => (idx % 9 < 7 ∧ at37 s.hand (idx + 2) ≠ 0) ∧
      ((at37 s.hand (idx + 1) ≠ 0 ∧ Leaf idx (s.pos.add (.shuntsu idx)) v) ∨ Leaf idx (s.pos.add (.taatsu idx 1)) v)) s1 := by
    by_cases hc : idx % 9 < 7 ∧ at37 s.hand (idx + 2) ≠ 0
    · rw [if_pos hc] at h1
      simp only [bind_some] at h1
      obtain ⟨u1, g1, u2, g2, g3⟩ := h1
      simp only [Option.some.injEq] at g3
      subst g3
      have b1 : Acc s (fun v => at37 s.hand (idx + 1) ≠ 0 ∧ Leaf idx (s.pos.add (.shuntsu idx)) v) u1 := by
        by_cases hd : at37 s.hand (idx + 1) ≠ 0
        · rw [if_pos hd] at g1
          simp only [bind_some] at g1
          obtain ⟨w, k1, k2⟩ := g1
          simp only [Option.some.injEq] at k2
          subst k2
          exact (acc_shuntsu hg k1).congr (fun v => by simp [hd])
        · rw [if_neg hd] at g1
          simp only [Option.some.injEq] at g1
          subst g1
          exact (Acc.refl s).congr (fun v => by simp [hd])
      have b2 := acc_taatsu hg g2
      rw [b1.pos] at b2
      exact (b1.trans b2).congr (fun v => by simp [hc])
    · rw [if_neg hc] at h1
      simp only [Option.some.injEq] at h1
      subst h1
      exact (Acc.refl s).congr (fun v => by simp [hc])
  have a2 : Acc s1 (fun v => (idx % 9 < 8 ∧ at37 s.hand (idx + 1) ≠ 0) ∧ Leaf idx (s.pos.add (.taatsu idx 2)) v) s2 := by
    rw [a1.hand] at h2
    by_cases hc : idx % 9 < 8 ∧ at37 s.hand (idx + 1) ≠ 0
    · rw [if_pos hc] at h2
      simp only [bind_some] at h2
      obtain ⟨w, k1, k2⟩ := h2
      simp only [Option.some.injEq] at k2
      subst k2
      have := acc_taatsu hg k1
      rw [a1.pos] at this
      exact this.congr (fun v => by simp [hc])
    · rw [if_neg hc] at h2
      simp only [Option.some.injEq] at h2
      subst h2
      exact (Acc.refl s1).congr (fun v => by simp [hc])
  simp only [Option.some.injEq] at h4
  subst h4
  have a3 := acc_kuttsuki hg h3
  rw [a2.pos, a1.pos] at a3
  refine ((a1.trans a2).trans a3).congr (fun v => ?_)
  unfold shunBranches
  simp only [List.mem_append, List.mem_singleton]
  constructor
  · rintro ((⟨hc, ⟨hd, hl⟩ | hl⟩ | ⟨hc, hl⟩) | hl)
    · exact ⟨.shuntsu idx, .inl (by simp [hc, hd]), hl⟩
    · exact ⟨.taatsu idx 1, .inl (by simp [hc]), hl⟩
    · exact ⟨.taatsu idx 2, .inr (.inl (by simp [hc])), hl⟩
    · exact ⟨.single idx tune, .inr (.inr rfl), hl⟩
  · rintro ⟨b, hb | hb | rfl, hl⟩
    · split at hb
      · rename_i hc
        simp only [List.mem_append, List.mem_singleton] at hb
        rcases hb with hb | rfl
        · split at hb
          · rename_i hd
            simp only [List.mem_singleton] at hb
            subst hb
            exact .inl (.inl ⟨hc, .inl ⟨hd, hl⟩⟩)
          · simp at hb
        · exact .inl (.inl ⟨hc, .inr hl⟩)
      · simp at hb
    · split at hb
      · rename_i hc
        simp only [List.mem_singleton] at hb
        subst hb
        exact .inl (.inr ⟨hc, hl⟩)
      · simp at hb
    · exact .inr hl

theorem leaf_acc (s : Solver) : Acc s (fun v => v = s.pos.value) s.leaf := by
  have hv : s.leaf.best = min s.best s.pos.value := by
    rcases s with ⟨_, _, m, t, p, _, best, tune⟩
    have e : (if decide (tune ≠ 0) = true ∧ p = 0 then (1 : Int) else 0) = if tune ≠ 0 ∧ p = 0 then 1 else 0 := by
      simp only [decide_eq_true_eq]
    show (min best _ : Int) = min best (8 - 2 * m - t - p + max 0 (m + t + max 0 (p - 1) - 4) +
      (if decide (tune ≠ 0) = true ∧ p = 0 then 1 else 0))
    rw [e]
    by_cases h : tune ≠ 0 ∧ p = 0
    · rw [if_pos h, if_pos h]
      dsimp only
      clear e h
      split <;> omega
    · rw [if_neg h, if_neg h]
      dsimp only
      clear e h
      split <;> omega
  refine ⟨rfl, ?_, ?_, ?_⟩
  · rw [hv]; omega
  · rintro v rfl; rw [hv]; omega
  · rw [hv]; omega

theorem leaf_iff {idx : Nat} {q : Pos} {v : Int} (h : nextIdx q.hand idx ≠ 27) :
    Leaf idx q v ↔ ∃ br ∈ branches q.hand (nextIdx q.hand idx), Leaf br.2 (q.addAll br.1) v := by
  constructor
  · intro hl
    cases hl with
    | done h' => exact absurd h' h
    | step _ hb hl => exact ⟨_, hb, hl⟩
  · rintro ⟨br, hb, hl⟩
    exact .step h hb hl

theorem leaf_done_iff {idx : Nat} {q : Pos} {v : Int} (h : nextIdx q.hand idx = 27) : Leaf idx q v ↔ v = q.value := by
  constructor
  · intro hl
    cases hl with
    | done => rfl
    | step h' => exact absurd h h'
  · rintro rfl
    exact .done h

theorem solveNormal_good (fuel : Nat) : Good (solveNormal fuel) := by
  induction fuel with
  | zero => intro idx s s' h; simp [solveNormal] at h
  | succ fuel ih =>
    intro idx s s' h
    rw [solveNormal] at h
    change (if nextIdx s.hand idx = 27 then _ else _) = _ at h
    by_cases hd : nextIdx s.hand idx = 27
    · rw [if_pos hd] at h
      simp only [Option.some.injEq] at h
      subst h
      exact (leaf_acc s).congr (fun v => (leaf_done_iff hd).symm)
    · rw [if_neg hd] at h
      have key := fun v => (leaf_iff (q := s.pos) (v := v) hd)
      change ∀ v, Leaf idx s.pos v ↔ ∃ br ∈ branches s.hand (nextIdx s.hand idx), _ at key
      unfold branches at key
      have hdef : skipEmpty s.hand (27 - idx) idx = nextIdx s.hand idx := rfl
      simp only [hdef] at h
      generalize hi : nextIdx s.hand idx = i at h key
      have hsb : ∀ k tune, shunBranches (bump s.hand i k) i tune = shunBranches s.hand i tune := by
        intro k tune
        have : ∀ d, 0 < d → at37 (bump s.hand i k) (i + d) = at37 s.hand (i + d) := by
          intro d hd
          unfold at37
          rw [List.getD_eq_getElem?_getD, List.getD_eq_getElem?_getD, bump_getElem?]
          have : ¬ i = i + d := by omega
          simp only [if_neg this]
          cases s.hand[i + d]? <;> rfl
        unfold shunBranches
        rw [this 1 (by omega), this 2 (by omega)]
      by_cases c4 : at37 s.hand i = 4
      · rw [if_pos c4] at h
        simp only [if_pos c4] at key
        simp only [bind_some] at h
        obtain ⟨s1, h1, s2, h2, s3, h3, h4⟩ := h
        simp only [Option.some.injEq] at h4
        subst h4
        have a1 := processShuntsu_acc ih h1
        have a2 := ih _ _ _ h2
        rw [a1.pos] at a2
        have a12 := acc_koutsu (a1.trans a2)
        have a3 := processShuntsu_acc ih h3
        have a3 := acc_toitsu a3
        have e3 : ((s2.removeKoutsu i).addToitsu i).pos = s.pos.add (.toitsu i) := by
          rw [a12.same]; rfl
        have e3' : ((s2.removeKoutsu i).addToitsu i).hand = bump s.hand i (-2) := by
          rw [a12.same]; rfl
        rw [e3, e3', hsb] at a3
        refine (a12.trans a3).congr (fun v => ?_)
        rw [key]
        change (((∃ b ∈ shunBranches (bump s.hand i (-3)) i true, Leaf i ((s.pos.add (.koutsu i)).add b) v) ∨ _) ∨ _) ↔ _
        rw [hsb]
        simp only [List.mem_append, List.mem_map, List.mem_singleton]
        constructor
        · rintro ((⟨b, hb, hl⟩ | hl) | ⟨b, hb, hl⟩)
          · exact ⟨_, .inl (.inl ⟨b, hb, rfl⟩), hl⟩
          · exact ⟨_, .inl (.inr rfl), hl⟩
          · exact ⟨_, .inr ⟨b, hb, rfl⟩, hl⟩
        · rintro ⟨br, (⟨b, hb, rfl⟩ | rfl) | ⟨b, hb, rfl⟩, hl⟩
          · exact .inl (.inl ⟨b, hb, hl⟩)
          · exact .inl (.inr hl)
          · exact .inr ⟨b, hb, hl⟩
      · rw [if_neg c4] at h
        simp only [if_neg c4] at key
        by_cases c3 : at37 s.hand i = 3
        · rw [if_pos c3] at h
          simp only [if_pos c3] at key
          simp only [bind_some] at h
          obtain ⟨s1, h1, s2, h2, h3⟩ := h
          simp only [Option.some.injEq] at h3
          subst h3
          have a1 := acc_koutsu (ih _ _ _ h1)
          have a2 := acc_toitsu (ih _ _ _ h2)
          have e2 : ((s1.removeKoutsu i).addToitsu i).pos = s.pos.add (.toitsu i) := by
            rw [a1.same]; rfl
          rw [e2] at a2
          refine (a1.trans a2).congr (fun v => ?_)
          rw [key]
          simp only [List.mem_cons, List.not_mem_nil, or_false]
          constructor
          · rintro (hl | hl)
            · exact ⟨_, .inl rfl, hl⟩
            · exact ⟨_, .inr rfl, hl⟩
          · rintro ⟨br, rfl | rfl, hl⟩
            · exact .inl hl
            · exact .inr hl
        · rw [if_neg c3] at h
          simp only [if_neg c3] at key
          by_cases c2 : at37 s.hand i = 2
          · rw [if_pos c2] at h
            simp only [if_pos c2] at key
            simp only [bind_some] at h
            obtain ⟨s1, h1, h2⟩ := h
            have a1 := acc_toitsu (ih _ _ _ h1)
            have a2 := processShuntsu_acc ih h2
            rw [a1.pos, a1.hand] at a2
            refine (a1.trans a2).congr (fun v => ?_)
            rw [key]
            simp only [List.mem_cons, List.mem_map]
            constructor
            · rintro (hl | ⟨b, hb, hl⟩)
              · exact ⟨_, .inl rfl, hl⟩
              · exact ⟨_, .inr ⟨b, hb, rfl⟩, hl⟩
            · rintro ⟨br, rfl | ⟨b, hb, rfl⟩, hl⟩
              · exact .inl hl
              · exact .inr ⟨b, hb, hl⟩
          · rw [if_neg c2] at h
            simp only [if_neg c2] at key
            by_cases c1 : at37 s.hand i = 1
            · rw [if_pos c1] at h
              simp only [if_pos c1] at key
              have a1 := processShuntsu_acc ih h
              refine a1.congr (fun v => ?_)
              rw [key]
              simp only [List.mem_map]
              constructor
              · rintro ⟨b, hb, hl⟩
                exact ⟨_, ⟨b, hb, rfl⟩, hl⟩
              · rintro ⟨br, ⟨b, hb, rfl⟩, hl⟩
                exact ⟨b, hb, hl⟩
            · rw [if_neg c1] at h
              simp only [if_neg c1] at key
              simp only [Option.some.injEq] at h
              subst h
              exact (Acc.refl s).congr (fun v => by rw [key]; simp)

end MJ
