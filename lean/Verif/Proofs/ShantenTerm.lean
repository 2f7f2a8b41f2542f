import Verif.Proofs.Shanten
/-!
The shanten search terminates on every integer hand, and how much fuel is given beyond the need does not matter.
-/
namespace MJ
open Spec

theorem at37_bump' (h : List Int) (i : Nat) (k : Int) (j : Nat) :
    at37 (bump h i k) j = at37 h j + if j = i ∧ j < h.length then k else 0 := by
  unfold at37
  rw [List.getD_eq_getElem?_getD, List.getD_eq_getElem?_getD, bump_getElem?]
  by_cases hj : j < h.length
  · rw [List.getElem?_eq_getElem hj]
    simp only [Option.map_some, Option.getD_some]
    (repeat' split) <;> omega
  · rw [List.getElem?_eq_none (by omega)]
    have : ¬ (j = i ∧ j < h.length) := by omega
    rw [if_neg this]
    rfl

theorem at37_bump3' (h : List Int) (i : Nat) (k : Int) (j : Nat) :
    at37 (bump3 h i k) j = at37 h j + if (j = i ∨ j = i + 1 ∨ j = i + 2) ∧ j < h.length then k else 0 := by
  unfold bump3
  rw [at37_bump', at37_bump', at37_bump']
  simp only [bump_length]
  (repeat' split) <;> omega

theorem at37_lt_length {h : List Int} {i : Nat} (hi : at37 h i ≠ 0) : i < h.length := by
  apply Classical.byContradiction
  intro hn
  apply hi
  unfold at37
  rw [List.getD_eq_getElem?_getD, List.getElem?_eq_none (by omega)]
  rfl

/-- the number of suited tiles -/
def suitSum (h : List Int) : Nat := ((List.range 27).map (fun j => (at37 h j).toNat)).sum

/-- the depth of the recursion from `idx` is at most this -/
def depth (h : List Int) (idx : Nat) : Nat := suitSum h + (27 - idx)

theorem sum_map_le {α : Type} {f g : α → Nat} {l : List α} (h : ∀ x ∈ l, f x ≤ g x) :
    (l.map f).sum ≤ (l.map g).sum := by
  induction l with
  | nil => simp
  | cons a l ih =>
    simp only [List.map_cons, List.sum_cons]
    have := h a (by simp)
    have := ih (fun x hx => h x (by simp [hx]))
    omega

theorem sum_map_lt {α : Type} {f g : α → Nat} {l : List α} (h : ∀ x ∈ l, f x ≤ g x) {a : α} (ha : a ∈ l)
    (hlt : f a < g a) : (l.map f).sum < (l.map g).sum := by
  induction l with
  | nil => simp at ha
  | cons b l ih =>
    simp only [List.map_cons, List.sum_cons]
    rcases List.mem_cons.1 ha with rfl | ha
    · have := sum_map_le (l := l) (f := f) (g := g) (fun x hx => h x (by simp [hx]))
      omega
    · have := h b (by simp)
      have := ih (fun x hx => h x (by simp [hx])) ha
      omega

theorem suitSum_lt {h h' : List Int} {i : Nat} (hi : i < 27) (hle : ∀ j, at37 h' j ≤ at37 h j)
    (hlt : at37 h' i < at37 h i) (hpos : 0 < at37 h i) : suitSum h' < suitSum h := by
  unfold suitSum
  apply sum_map_lt (a := i)
  · intro x _
    have := hle x
    omega
  · simp [hi]
  · omega

theorem suitSum_bump {h : List Int} {i : Nat} (hi : i < 27) (hpos : 0 < at37 h i) {k : Int} (hk : k < 0) :
    suitSum (bump h i k) < suitSum h := by
  have hl := at37_lt_length (h := h) (i := i) (by omega)
  refine suitSum_lt hi (fun j => ?_) ?_ hpos
  · rw [at37_bump']; split <;> omega
  · rw [at37_bump', if_pos ⟨rfl, hl⟩]; omega

theorem suitSum_bump3 {h : List Int} {i : Nat} (hi : i < 27) (hpos : 0 < at37 h i) :
    suitSum (bump3 h i (-1)) < suitSum h := by
  have hl := at37_lt_length (h := h) (i := i) (by omega)
  refine suitSum_lt hi (fun j => ?_) ?_ hpos
  · rw [at37_bump3']; split <;> omega
  · rw [at37_bump3', if_pos ⟨by omega, hl⟩]; omega

theorem suitSum_taatsu {h : List Int} {i w : Nat} (hi : i < 27) (hpos : 0 < at37 h i) (hw : w = 1 ∨ w = 2) :
    suitSum (bump (bump3 h i (-1)) (i + w) 1) < suitSum h := by
  have hl := at37_lt_length (h := h) (i := i) (by omega)
  have hlen : (bump3 h i (-1)).length = h.length := by simp [bump3, bump_length]
  refine suitSum_lt hi (fun j => ?_) ?_ hpos
  · rw [at37_bump', at37_bump3', hlen]; (repeat' split) <;> omega
  · rw [at37_bump', at37_bump3', hlen]
    have h1 : ¬ (i = i + w ∧ i < h.length) := by omega
    rw [if_neg h1, if_pos ⟨by omega, hl⟩]; omega

/-- a call that succeeds on every hand with depth below `n` -/
def Tot (n : Nat) (rec : Nat → Solver → Option Solver) : Prop :=
  ∀ idx s, idx ≤ 27 → depth s.hand idx < n → ∃ s', rec idx s = some s'

theorem processShuntsu_tot {n : Nat} {rec : Nat → Solver → Option Solver} (hg : Good rec) (ht : Tot n rec) {i : Nat}
    (hi : i < 27) {tune : Bool} {s : Solver} (hpos : 0 < at37 s.hand i) (hn : depth s.hand i ≤ n) :
    ∃ s', processShuntsu rec i tune s = some s' := by
  have hcall : ∀ s0 : Solver, suitSum s0.hand < suitSum s.hand → ∃ s', rec i s0 = some s' := by
    intro s0 h0
    apply ht _ _ (by omega)
    unfold depth at *
    omega
  unfold processShuntsu
  simp only [bind_some]
  have hshun : ∀ s0 : Solver, s0.hand = s.hand → ∃ s', rec i (s0.addShuntsu i) = some s' := by
    intro s0 h0
    apply hcall
    show suitSum (bump3 s0.hand i (-1)) < _
    rw [h0]
    exact suitSum_bump3 hi hpos
  have htaa : ∀ (s0 : Solver) (w : Nat), w = 1 ∨ w = 2 → s0.hand = s.hand → ∃ s', rec i (s0.addTaatsu i w) = some s' := by
    intro s0 w hw h0
    apply hcall
    show suitSum (bump (bump3 s0.hand i (-1)) (i + w) 1) < _
    rw [h0]
    exact suitSum_taatsu hi hpos hw
  have hkut : ∀ s0 : Solver, s0.hand = s.hand → ∃ s', rec i (s0.addKuttsuki i tune) = some s' := by
    intro s0 h0
    apply hcall
    show suitSum (bump s0.hand i (-1)) < _
    rw [h0]
    exact suitSum_bump hi hpos (by omega)
  -- the first two parts
  have p1 : ∃ s1 : Solver, (if i % 9 < 7 ∧ at37 s.hand (i + 2) ≠ 0 then do
      let s ← (if at37 s.hand (i + 1) ≠ 0 then do
          let s ← rec i (s.addShuntsu i)
          some (s.removeShuntsu i)
        else some s)
      let s ← rec i (s.addTaatsu i 1)
      some (s.removeTaatsu i 1)
    else some s) = some s1 ∧ s1.hand = s.hand := by
    split
    · have q1 : ∃ u : Solver, (if at37 s.hand (i + 1) ≠ 0 then do
          let s ← rec i (s.addShuntsu i)
          some (s.removeShuntsu i)
        else some s) = some u ∧ u.hand = s.hand := by
        split
        · obtain ⟨u, hu⟩ := hshun s rfl
          exact ⟨u.removeShuntsu i, by simp [hu], (acc_shuntsu hg hu).hand⟩
        · exact ⟨s, rfl, rfl⟩
      obtain ⟨u, hu, hu'⟩ := q1
      obtain ⟨w, hw⟩ := htaa u 1 (.inl rfl) hu'
      refine ⟨w.removeTaatsu i 1, ?_, (acc_taatsu hg hw).hand.trans hu'⟩
      rw [hu]
      simp [hw]
    · exact ⟨s, rfl, rfl⟩
  obtain ⟨s1, h1, e1⟩ := p1
  have p2 : ∃ s2 : Solver, (if i % 9 < 8 ∧ at37 s1.hand (i + 1) ≠ 0 then do
      let s ← rec i (s1.addTaatsu i 2)
      some (s.removeTaatsu i 2)
    else some s1) = some s2 ∧ s2.hand = s.hand := by
    split
    · obtain ⟨w, hw⟩ := htaa s1 2 (.inr rfl) e1
      exact ⟨w.removeTaatsu i 2, by simp [hw], (acc_taatsu hg hw).hand.trans e1⟩
    · exact ⟨s1, rfl, e1⟩
  obtain ⟨s2, h2, e2⟩ := p2
  obtain ⟨s3, h3⟩ := hkut s2 e2
  exact ⟨_, s1, h1, s2, h2, s3, h3, rfl⟩

theorem skipEmpty_spec (h : List Int) (n idx : Nat) :
    idx ≤ skipEmpty h n idx ∧ skipEmpty h n idx ≤ idx + n ∧
      (skipEmpty h n idx < idx + n → at37 h (skipEmpty h n idx) ≠ 0) ∧
      ∀ j, idx ≤ j → j < skipEmpty h n idx → at37 h j = 0 := by
  induction n generalizing idx with
  | zero =>
    simp only [skipEmpty]
    exact ⟨by omega, by omega, by omega, by omega⟩
  | succ n ih =>
    simp only [skipEmpty]
    by_cases h0 : at37 h idx ≠ 0
    · rw [if_pos h0]
      exact ⟨by omega, by omega, fun _ => h0, by omega⟩
    · rw [if_neg h0]
      obtain ⟨a, b, c, d⟩ := ih (idx + 1)
      refine ⟨by omega, by omega, fun hh => c (by omega), fun j hj hj' => ?_⟩
      by_cases e : j = idx
      · subst e; omega
      · exact d j (by omega) hj'

theorem nextIdx_spec (h : List Int) {idx : Nat} (hi : idx ≤ 27) :
    idx ≤ nextIdx h idx ∧ nextIdx h idx ≤ 27 ∧ (nextIdx h idx ≠ 27 → at37 h (nextIdx h idx) ≠ 0) ∧
      ∀ j, idx ≤ j → j < nextIdx h idx → at37 h j = 0 := by
  obtain ⟨a, b, c, d⟩ := skipEmpty_spec h (27 - idx) idx
  unfold nextIdx
  exact ⟨a, by omega, fun hh => c (by omega), d⟩

theorem solveNormal_tot (n : Nat) : Tot n (solveNormal n) := by
  induction n with
  | zero => intro idx s _ h; omega
  | succ n ih =>
    intro idx s hidx hn
    have hg := solveNormal_good n
    obtain ⟨n1, n2, n3, _⟩ := nextIdx_spec s.hand hidx
    rw [solveNormal]
    have hdef : skipEmpty s.hand (27 - idx) idx = nextIdx s.hand idx := rfl
    simp only [hdef]
    generalize hi : nextIdx s.hand idx = i at n1 n2 n3 ⊢
    by_cases hd : i = 27
    · rw [if_pos hd]; exact ⟨_, rfl⟩
    · rw [if_neg hd]
      have hi27 : i < 27 := by omega
      have hnz := n3 hd
      have hdep : depth s.hand i ≤ n := by unfold depth at *; omega
      have hstep : ∀ (s0 : Solver) (k : Int), k < 0 → 0 < at37 s.hand i → s0.hand = bump s.hand i k → ∀ j, i ≤ j → j ≤ 27 →
          ∃ s', solveNormal n j s0 = some s' := by
        intro s0 k hk hp h0 j hj hj'
        apply ih _ _ hj'
        rw [h0]
        have := suitSum_bump hi27 hp hk
        unfold depth at *
        omega
      have hshun : ∀ (s0 : Solver) (k : Int) (tune : Bool), k ≤ 0 → 0 < at37 s.hand i → 0 < at37 s.hand i + k → s0.hand = bump s.hand i k →
          ∃ s', processShuntsu (solveNormal n) i tune s0 = some s' := by
        intro s0 k tune hk hp hp' h0
        have hl := at37_lt_length hnz
        refine processShuntsu_tot hg ih hi27 ?_ ?_
        · rw [h0, at37_bump', if_pos ⟨rfl, hl⟩]; exact hp'
        · rw [h0]
          by_cases k0 : k = 0
          · subst k0
            have : bump s.hand i 0 = s.hand := by
              apply List.ext_getElem?
              intro j
              rw [bump_getElem?]
              cases s.hand[j]? <;> simp
            rw [this]; exact hdep
          · have := suitSum_bump hi27 hp (k := k) (by omega)
            unfold depth at *
            omega
      by_cases c4 : at37 s.hand i = 4
      · rw [if_pos c4]
        simp only [bind_some]
        obtain ⟨s1, h1⟩ := hshun (s.addKoutsu i) (-3) true (by omega) (by omega) (by omega) rfl
        have a1 := processShuntsu_acc hg h1
        obtain ⟨s2, h2⟩ := hstep s1 (-3) (by omega) (by omega) a1.hand (i + 1) (by omega) (by omega)
        have a2 := acc_koutsu (a1.trans (hg _ _ _ h2))
        obtain ⟨s3, h3⟩ := hshun ((s2.removeKoutsu i).addToitsu i) (-2) false (by omega) (by omega) (by omega)
          (by show bump (s2.removeKoutsu i).hand i (-2) = _; rw [a2.hand])
        exact ⟨_, s1, h1, s2, h2, s3, h3, rfl⟩
      · rw [if_neg c4]
        by_cases c3 : at37 s.hand i = 3
        · rw [if_pos c3]
          simp only [bind_some]
          obtain ⟨s1, h1⟩ := hstep (s.addKoutsu i) (-3) (by omega) (by omega) rfl (i + 1) (by omega) (by omega)
          have a1 := acc_koutsu (hg _ _ _ h1)
          obtain ⟨s2, h2⟩ := hstep ((s1.removeKoutsu i).addToitsu i) (-2) (by omega) (by omega)
            (by show bump (s1.removeKoutsu i).hand i (-2) = _; rw [a1.hand]) i (by omega) (by omega)
          exact ⟨_, s1, h1, s2, h2, rfl⟩
        · rw [if_neg c3]
          by_cases c2 : at37 s.hand i = 2
          · rw [if_pos c2]
            simp only [bind_some]
            obtain ⟨s1, h1⟩ := hstep (s.addToitsu i) (-2) (by omega) (by omega) rfl (i + 1) (by omega) (by omega)
            have a1 := acc_toitsu (hg _ _ _ h1)
            obtain ⟨s2, h2⟩ := processShuntsu_tot (tune := false) (s := s1.removeToitsu i) hg ih hi27 (by rw [a1.hand]; omega) (by rw [a1.hand]; exact hdep)
            exact ⟨_, s1, h1, h2⟩
          · rw [if_neg c2]
            by_cases c1 : at37 s.hand i = 1
            · rw [if_pos c1]
              exact processShuntsu_tot hg ih hi27 (by omega) hdep
            · rw [if_neg c1]; exact ⟨_, rfl⟩

/-- the result of two correct calls is the same -/
theorem Acc.unique {s s1 s2 : Solver} {L : Int → Prop} (h1 : Acc s L s1) (h2 : Acc s L s2) : s1 = s2 := by
  have hb : s1.best = s2.best := by
    have a : s1.best ≤ s2.best := by
      rcases h2.attained with h | h
      · rw [h]; exact h1.le
      · exact h1.min _ h
    have b : s2.best ≤ s1.best := by
      rcases h1.attained with h | h
      · rw [h]; exact h2.le
      · exact h2.min _ h
    omega
  rw [h1.same, h2.same, hb]

theorem solveNormal_fuel {n idx : Nat} {s : Solver} (hi : idx ≤ 27) (hn : depth s.hand idx < n) :
    solveNormal n idx s = solveNormal (depth s.hand idx + 1) idx s := by
  obtain ⟨s1, h1⟩ := solveNormal_tot n idx s hi hn
  obtain ⟨s2, h2⟩ := solveNormal_tot (depth s.hand idx + 1) idx s hi (by omega)
  rw [h1, h2, (solveNormal_good _ _ _ _ h1).unique (solveNormal_good _ _ _ _ h2)]

end MJ
