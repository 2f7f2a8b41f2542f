import Verif.Proofs.ShantenFound
/-!
The honour tiles, which the solver counts before the search, and the number of tiles of a hand.
-/
namespace MJ
open Spec

/-! ### The hand as a function -/

theorem list_eq_range {h : List Int} : h = (List.range h.length).map (at37 h) := by
  apply List.ext_getElem
  · simp
  · intro j h1 h2
    simp only [List.getElem_map, List.getElem_range, at37]
    simp [h1]

theorem sum_eq_range {h : List Int} (hl : h.length = 37) : h.sum = ((List.range 37).map (at37 h)).sum := by
  conv => lhs; rw [list_eq_range (h := h), hl]

theorem drop27 {h : List Int} (hl : h.length = 37) : h.drop 27 = (List.range 10).map (fun k => at37 h (27 + k)) := by
  apply List.ext_getElem
  · simp [hl]
  · intro j h1 h2
    simp only [List.getElem_drop, List.getElem_map, List.getElem_range, at37]
    have : 27 + j < h.length := by simp at h1; omega
    simp [this]

/-- a legal hand: 37 entries, at most four of each kind, at most one red five of each suit -/
structure RedHand (h : List Int) : Prop where
  len : h.length = 37
  range : ∀ j, 0 ≤ at37 h j ∧ at37 h j ≤ 4
  red : ∀ j, 34 ≤ j → at37 h j ≤ 1

/-- a legal hand without red fives -/
structure LegalHand (h : List Int) : Prop extends RedHand h where
  noRed : ∀ j, 34 ≤ j → at37 h j = 0

/-- the number of tiles: a red five is also counted as a five -/
def tiles (h : List Int) : Int := ((List.range 34).map (at37 h)).sum
/-- the number of red fives -/
def reds (h : List Int) : Int := at37 h 34 + at37 h 35 + at37 h 36

/-- how many of the honour kinds in `L` satisfy the test -/
def honours (p : Int → Bool) (h : List Int) (L : List Nat) : Nat := L.countP (fun j => p (at37 h j))

def honourKinds : List Nat := [27, 28, 29, 30, 31, 32, 33]

theorem countIf_honours {h : List Int} (hl : RedHand h) (p : Int → Bool) (hp : ∀ x : Int, 0 ≤ x → x ≤ 1 → p x = false) :
    countIf p (h.drop 27) = honours p h honourKinds := by
  rw [drop27 hl.len]
  unfold countIf honours honourKinds
  rw [← List.countP_eq_length_filter]
  have e : (List.range 10).map (fun k => at37 h (27 + k)) =
      [at37 h 27, at37 h 28, at37 h 29, at37 h 30, at37 h 31, at37 h 32, at37 h 33,
        at37 h 34, at37 h 35, at37 h 36] := by
    simp [List.range_succ]
  have r : ∀ j, 34 ≤ j → p (at37 h j) = false := fun j hj => hp _ (hl.range j).1 (hl.red j hj)
  rw [e]
  simp [List.countP_cons, r]

theorem init_pos {h : List Int} (hl : RedHand h) : (Solver.init h).pos =
    ⟨h, (14 - h.sum) / 3 + honours (fun x => decide (3 ≤ x)) h honourKinds, 0, honours (fun x => x == 2) h honourKinds, 0⟩ := by
  simp only [Solver.init, Solver.pos]
  rw [countIf_honours hl _ (fun x h0 h1 => by simp; omega), countIf_honours hl _ (fun x h0 h1 => by simp; omega)]

/-! ### From a split of the whole hand to a split of the suited tiles -/

theorem counts_perm {A B : List Block} (e : A.Perm B) : sets A = sets B ∧ taatsus A = taatsus B ∧ toitsus A = toitsus B ∧
    singles A = singles B := by
  simp only [sets, taatsus, toitsus, singles, e.countP_eq, and_self]

theorem honour_block {b : Block} (hv : b.valid = true) (hs : 27 ≤ b.start) (j : Nat) :
    b.uses j = (if j = b.start then
      3 * (if b.isSet = true then 1 else 0) + 2 * (if b.isToitsu = true then 1 else 0) + (if b.isSingle = true then 1 else 0)
      else 0) ∧ b.isTaatsu = false := by
  cases b <;> simp only [Block.valid, Block.start, decide_eq_true_eq] at hv hs <;>
    first
    | omega
    | (simp [Block.uses, Block.start, Block.isSet, Block.isToitsu, Block.isSingle, Block.isTaatsu])

theorem honour_used {B : List Block} (hv : ∀ b ∈ B, b.valid = true) {j : Nat} (hj : 27 ≤ j) (hs : ∀ b ∈ B, b.start = j) :
    used B j = 3 * sets B + 2 * toitsus B + singles B ∧ taatsus B = 0 := by
  induction B with
  | nil => exact ⟨rfl, rfl⟩
  | cons b B ih =>
    obtain ⟨h1, h2⟩ := ih (fun b hb => hv b (by simp [hb])) (fun b hb => hs b (by simp [hb]))
    have e := hs b (by simp)
    obtain ⟨g1, g2⟩ := honour_block (hv b (by simp)) (by omega) j
    obtain ⟨c1, c2, c3, c4⟩ := counts_cons b B
    rw [used_cons, c1, c2, c3, c4, g1, if_pos e.symm, g2, h2]
    refine ⟨?_, by simp⟩
    rw [h1]
    omega

theorem used_zero_of_start {B : List Block} (hv : ∀ b ∈ B, b.valid = true) {j : Nat} (hj : 27 ≤ j) (hs : ∀ b ∈ B, b.start ≠ j) :
    used B j = 0 := by
  induction B with
  | nil => rfl
  | cons b B ih =>
    rw [used_cons, ih (fun b hb => hv b (by simp [hb])) (fun b hb => hs b (by simp [hb]))]
    have hne := hs b (by simp)
    by_cases h27 : 27 ≤ b.start
    · rw [(honour_block (hv b (by simp)) h27 j).1, if_neg (fun e => hne e.symm)]
    · have := Spec.Block.ok.uses_zero (b := b) ⟨hv b (by simp), by omega⟩ hj
      rw [this]

theorem totals_honour {d m p : Int} {sA tA gA sR aR tR gR : Nat} (hp : 0 ≤ p) (hx : (3 * sA + 2 * tA + gA : Int) ≤ 4)
    (ht : Totals d (m + (sA + sR : Nat)) ((0 + aR : Nat)) (p + (tA + tR : Nat)) ((gA + gR : Nat))) :
    Totals d (m + (if (3 : Int) ≤ 3 * sA + 2 * tA + gA then 1 else 0) + sR) aR
      (p + (if (3 * sA + 2 * tA + gA : Int) = 2 then 1 else 0) + tR) gR := by
  unfold Totals
  rcases ht with ⟨rfl, h1, h2, h3, h4⟩ | ⟨rfl, ⟨h1, h2, h3, h4⟩ | ⟨h1, h2, h3, h4⟩ | ⟨h1, h2, h3, h4⟩⟩
  · refine .inl ⟨rfl, ?_⟩
    have : gA = 0 := by omega
    have : tA = 0 ∨ tA = 1 := by omega
    have : (if (3 : Int) ≤ 3 * sA + 2 * tA + gA then (1 : Int) else 0) = sA := by split <;> omega
    have : (if (3 * sA + 2 * tA + gA : Int) = 2 then (1 : Int) else 0) = tA := by split <;> omega
    omega
  · refine .inr ⟨rfl, .inl ?_⟩
    have : tA = 0 := by omega
    have : (if (3 : Int) ≤ 3 * sA + 2 * tA + gA then (1 : Int) else 0) = sA := by split <;> omega
    have : (if (3 * sA + 2 * tA + gA : Int) = 2 then (1 : Int) else 0) = 0 := by split <;> omega
    omega
  · refine .inr ⟨rfl, .inr (.inl ?_)⟩
    have : gA = 0 := by omega
    have : tA = 0 ∨ tA = 1 := by omega
    have : (if (3 : Int) ≤ 3 * sA + 2 * tA + gA then (1 : Int) else 0) = sA := by split <;> omega
    have : (if (3 * sA + 2 * tA + gA : Int) = 2 then (1 : Int) else 0) = tA := by split <;> omega
    omega
  · have : gA = 0 := by omega
    by_cases c : tA = 2
    · refine .inr ⟨rfl, .inl ?_⟩
      rw [if_pos (by omega), if_neg (by omega)]
      omega
    · refine .inr ⟨rfl, .inr (.inr ?_)⟩
      have : tA = 0 ∨ tA = 1 := by omega
      have : (if (3 : Int) ≤ 3 * sA + 2 * tA + gA then (1 : Int) else 0) = sA := by split <;> omega
      have : (if (3 * sA + 2 * tA + gA : Int) = 2 then (1 : Int) else 0) = tA := by split <;> omega
      omega

/-- the honour tiles of a split, counted the way the solver counts them -/
theorem strip_honours {d : Int} (L : List Nat) (h : List Int) (hL : ∀ j ∈ L, 27 ≤ j) (hnd : L.Nodup) (h4 : ∀ j, at37 h j ≤ 4) :
    ∀ (m p : Int) (D : List Block), 0 ≤ p → (∀ b ∈ D, b.valid = true) → (∀ j ∈ L, at37 h j = used D j) →
    Totals d (m + sets D) (taatsus D) (p + toitsus D) (singles D) →
    ∃ D' : List Block, (∀ b ∈ D', b ∈ D ∧ b.start ∉ L) ∧ (∀ j, j < 27 → used D' j = used D j) ∧
      Totals d (m + honours (fun x => decide (3 ≤ x)) h L + sets D') (taatsus D')
        (p + honours (fun x => x == 2) h L + toitsus D') (singles D') := by
  induction L with
  | nil =>
    intro m p D _ _ _ ht
    exact ⟨D, fun b hb => ⟨hb, by simp⟩, fun _ _ => rfl, by simpa [honours] using ht⟩
  | cons j L ih =>
    intro m p D hp hv hD ht
    have hj : 27 ≤ j := hL j (by simp)
    let A := D.filter (fun b => decide (b.start = j))
    let R := D.filter (fun b => !decide (b.start = j))
    have hperm : (A ++ R).Perm D := List.filter_append_perm _ _
    have hA : ∀ b ∈ A, b ∈ D ∧ b.start = j := by
      intro b hb
      simpa [A] using hb
    have hR : ∀ b ∈ R, b ∈ D ∧ b.start ≠ j := by
      intro b hb
      simpa [R] using hb
    obtain ⟨u1, u2⟩ := honour_used (fun b hb => hv b (hA b hb).1) hj (fun b hb => (hA b hb).2)
    have u3 := used_zero_of_start (B := R) (fun b hb => hv b (hR b hb).1) hj (fun b hb => (hR b hb).2)
    have hused : ∀ i, used D i = used A i + used R i := fun i => by rw [← used_perm hperm, used_append]
    have hAz : ∀ i, i ≠ j → used A i = 0 := by
      intro i hi
      have : ∀ b ∈ A, b.uses i = 0 := by
        intro b hb
        rw [(honour_block (hv b (hA b hb).1) (by rw [(hA b hb).2]; exact hj) i).1, if_neg (by rw [(hA b hb).2]; exact hi)]
      apply Classical.byContradiction
      intro hn
      obtain ⟨b, hb, hb'⟩ := exists_of_used (B := A) (j := i) (by omega)
      have := this b hb
      omega
    have hj' := hD j (by simp)
    have hj4 := h4 j
    obtain ⟨c1, c2, c3, c4⟩ := counts_perm hperm
    obtain ⟨e1, e2, e3, e4⟩ := counts_append A R
    have e : (used D j : Int) = 3 * sets A + 2 * toitsus A + singles A := by rw [hused, u3, u1]; omega
    have hnd' := List.nodup_cons.1 hnd
    have ht' : Totals d (m + (if 3 ≤ at37 h j then 1 else 0) + sets R) (taatsus R)
        (p + (if at37 h j = 2 then 1 else 0) + toitsus R) (singles R) := by
      rw [← c1, ← c2, ← c3, ← c4, e1, e2, e3, e4, u2] at ht
      rw [hj', e] at hj4 ⊢
      exact totals_honour hp hj4 ht
    obtain ⟨D', d1, d2, d3⟩ := ih (fun i hi => hL i (by simp [hi])) hnd'.2 (m + (if 3 ≤ at37 h j then 1 else 0))
      (p + (if at37 h j = 2 then 1 else 0)) R (by split <;> omega) (fun b hb => hv b (hR b hb).1)
      (fun i hi => by
        have hne : i ≠ j := fun e => hnd'.1 (e ▸ hi)
        rw [hD i (by simp [hi]), hused, hAz i hne]; omega) ht'
    refine ⟨D', fun b hb => ?_, fun i hi => ?_, ?_⟩
    · obtain ⟨g1, g2⟩ := d1 b hb
      exact ⟨(hR b g1).1, by simp [(hR b g1).2, g2]⟩
    · rw [d2 i hi, hused, hAz i (by omega)]; omega
    · refine d3.congr ?_ rfl ?_ rfl
      · simp only [honours, List.countP_cons, decide_eq_true_eq]
        split <;> omega
      · simp only [honours, List.countP_cons, beq_iff_eq]
        split <;> omega

/-- a split of a whole legal hand: the search finds the value -/
theorem found_hand {d : Int} {h : List Int} (hl : LegalHand h) {D : List Block} (hv : ∀ b ∈ D, b.valid = true)
    (hm : ∀ b ∈ D, b.isMarked = false) (hD : ∀ j, j < 34 → at37 h j = used D j)
    (ht : Totals d ((14 - h.sum) / 3 + sets D) (taatsus D) (toitsus D) (singles D)) : Found d 0 (Solver.init h).pos := by
  obtain ⟨D', d1, d2, d3⟩ := strip_honours honourKinds h (by decide) (by decide) (fun j => (hl.range j).2)
    ((14 - h.sum) / 3) 0 D (by omega) hv (fun j hj => hD j (by unfold honourKinds at hj; grind)) (by simpa using ht)
  rw [init_pos hl.toRedHand]
  refine found _ d 0 _ D' (Nat.lt_succ_self _) (by omega) ⟨hl.len, ?_, fun _ _ => by omega, fun b hb => hm b (d1 b hb).1, rfl,
    ⟨by simp, by simp⟩, fun j _ hj => ?_, fun j _ _ => (hl.range j).2, ?_⟩
  · intro b hb
    obtain ⟨g1, g2⟩ := d1 b hb
    refine ⟨hv b g1, ?_⟩
    have hv' := hv b g1
    have : b.start < 34 := by
      cases b <;> simp only [Block.valid, decide_eq_true_eq] at hv' <;> simp only [Block.start] <;> omega
    unfold honourKinds at g2
    simp only [List.mem_cons, List.not_mem_nil, or_false, not_or] at g2
    omega
  · show at37 h j = _
    rw [hD j (by omega), d2 j hj]
  · refine d3.congr ?_ ?_ ?_ rfl <;> simp

/-! ### Counting tiles -/

theorem block_weight {b : Block} (hv : b.valid = true) : ((List.range 34).map b.uses).sum =
    3 * (if b.isSet = true then 1 else 0) + 2 * (if b.isTaatsu = true then 1 else 0) + 2 * (if b.isToitsu = true then 1 else 0) +
      (if b.isSingle = true then 1 else 0) := by
  have k : ∀ i < 34, ((List.range 34).map (Block.koutsu i).uses).sum = 3 := by decide
  have s : ∀ i < 27, i % 9 < 7 → ((List.range 34).map (Block.shuntsu i).uses).sum = 3 := by decide
  have t : ∀ i < 34, ((List.range 34).map (Block.toitsu i).uses).sum = 2 := by decide
  have w1 : ∀ i < 27, i % 9 < 7 → ((List.range 34).map (Block.taatsu i 1).uses).sum = 2 := by decide
  have w2 : ∀ i < 27, i % 9 < 8 → ((List.range 34).map (Block.taatsu i 2).uses).sum = 2 := by decide
  have g : ∀ i < 34, ∀ m, ((List.range 34).map (Block.single i m).uses).sum = 1 := by decide
  rcases b with i | i | i | ⟨i, w⟩ | ⟨i, m⟩ <;> simp only [Block.valid, decide_eq_true_eq] at hv
  · exact k i hv
  · exact s i hv.1 hv.2
  · exact t i hv
  · rcases hv with ⟨h, ⟨rfl, h'⟩ | ⟨rfl, h'⟩⟩
    · exact w1 i h h'
    · exact w2 i h h'
  · exact g i hv m

theorem sum_map_add {l : List Nat} (f g : Nat → Nat) : (l.map (fun j => f j + g j)).sum = (l.map f).sum + (l.map g).sum := by
  induction l with
  | nil => rfl
  | cons a l ih => simp only [List.map_cons, List.sum_cons, ih]; omega

/-- how many tiles the blocks use -/
theorem blocks_weight {B : List Block} (hv : ∀ b ∈ B, b.valid = true) :
    ((List.range 34).map (used B)).sum = 3 * sets B + 2 * (taatsus B + toitsus B) + singles B := by
  induction B with
  | nil => decide
  | cons b B ih =>
    have e : used (b :: B) = fun j => b.uses j + used B j := by funext j; exact used_cons b B j
    obtain ⟨c1, c2, c3, c4⟩ := counts_cons b B
    rw [e, sum_map_add, ih (fun b hb => hv b (by simp [hb])), block_weight (hv b (by simp)), c1, c2, c3, c4]
    omega

theorem sum_red {h : List Int} (hl : RedHand h) : h.sum = tiles h + reds h := by
  rw [sum_eq_range hl.len, show (37 : Nat) = 34 + 1 + 1 + 1 from rfl, List.range_succ, List.range_succ, List.range_succ]
  simp only [List.map_append, List.sum_append, List.map_cons, List.map_nil, List.sum_cons, List.sum_nil, tiles, reds,
    show (34 : Nat) + 1 = 35 from rfl, show (34 : Nat) + 2 = 36 from rfl]
  omega

theorem sum_legal {h : List Int} (hl : LegalHand h) : h.sum = tiles h := by
  rw [sum_red hl.toRedHand]
  simp [reds, hl.noRed]

theorem sum_map_sub {l : List Nat} (f : Nat → Int) (g : Nat → Nat) :
    (l.map (fun j => f j - g j)).sum = (l.map f).sum - ((l.map g).sum : Nat) := by
  induction l with
  | nil => rfl
  | cons a l ih => simp only [List.map_cons, List.sum_cons, ih]; omega

theorem sum_nonneg {l : List Nat} {f : Nat → Int} (h : ∀ x ∈ l, 0 ≤ f x) : 0 ≤ (l.map f).sum := by
  induction l with
  | nil => simp
  | cons a l ih =>
    simp only [List.map_cons, List.sum_cons]
    have := h a (by simp)
    have := ih (fun x hx => h x (by simp [hx]))
    omega

theorem all_zero {l : List Nat} {f : Nat → Int} (h : ∀ x ∈ l, 0 ≤ f x) (hs : (l.map f).sum = 0) : ∀ x ∈ l, f x = 0 := by
  induction l with
  | nil => simp
  | cons a l ih =>
    simp only [List.map_cons, List.sum_cons] at hs
    have h1 := h a (by simp)
    have h2 := sum_nonneg (l := l) (f := f) (fun x hx => h x (by simp [hx]))
    intro x hx
    rcases List.mem_cons.1 hx with rfl | hx
    · omega
    · exact ih (fun x hx => h x (by simp [hx])) (by omega) x hx

theorem one_left {l : List Nat} {f : Nat → Int} (hn : l.Nodup) (h : ∀ x ∈ l, 0 ≤ f x) (hs : (l.map f).sum = 1) :
    ∃ y ∈ l, f y = 1 ∧ ∀ x ∈ l, x ≠ y → f x = 0 := by
  induction l with
  | nil => simp at hs
  | cons a l ih =>
    simp only [List.map_cons, List.sum_cons] at hs
    have h1 := h a (by simp)
    have h' : ∀ x ∈ l, 0 ≤ f x := fun x hx => h x (by simp [hx])
    have h2 := sum_nonneg h'
    have hn' := List.nodup_cons.1 hn
    by_cases e : f a = 1
    · refine ⟨a, by simp, e, fun x hx hne => ?_⟩
      rcases List.mem_cons.1 hx with rfl | hx
      · exact absurd rfl hne
      · exact all_zero h' (by omega) x hx
    · obtain ⟨y, y1, y2, y3⟩ := ih hn'.2 h' (by omega)
      refine ⟨y, by simp [y1], y2, fun x hx hne => ?_⟩
      rcases List.mem_cons.1 hx with rfl | hx
      · omega
      · exact y3 x hx hne

/-! ### Honour blocks -/

/-- the honour triplets and pairs the solver counts before the search -/
def honourBlocks (h : List Int) (L : List Nat) : List Block :=
  L.flatMap (fun j => if 3 ≤ at37 h j then [.koutsu j] else if at37 h j = 2 then [.toitsu j] else [])

theorem honourBlocks_counts (h : List Int) (L : List Nat) :
    sets (honourBlocks h L) = honours (fun x => decide (3 ≤ x)) h L ∧ taatsus (honourBlocks h L) = 0 ∧
    toitsus (honourBlocks h L) = honours (fun x => x == 2) h L ∧ markeds (honourBlocks h L) = 0 := by
  induction L with
  | nil => exact ⟨rfl, rfl, rfl, rfl⟩
  | cons j L ih =>
    obtain ⟨h1, h2, h3, h4⟩ := ih
    have e : honourBlocks h (j :: L) = (if 3 ≤ at37 h j then [.koutsu j] else if at37 h j = 2 then [.toitsu j] else []) ++
      honourBlocks h L := rfl
    rw [e]
    simp only [sets, taatsus, toitsus, markeds, List.countP_append, honours, List.countP_cons, decide_eq_true_eq, beq_iff_eq] at *
    rw [h1, h2, h3, h4]
    by_cases c : 3 ≤ at37 h j
    · have c2 : ¬ at37 h j = 2 := by omega
      simp [c, c2, Block.isSet, Block.isTaatsu, Block.isToitsu, Block.isMarked]
      omega
    · by_cases c2 : at37 h j = 2
      · simp [c2, Block.isSet, Block.isTaatsu, Block.isToitsu, Block.isMarked]
        omega
      · simp [c, c2]

theorem honourBlocks_valid {h : List Int} {L : List Nat} (hL : ∀ j ∈ L, 27 ≤ j ∧ j < 34) :
    ∀ b ∈ honourBlocks h L, b.valid = true ∧ b.start ∈ L := by
  intro b hb
  unfold honourBlocks at hb
  obtain ⟨j, hj, hb⟩ := List.mem_flatMap.1 hb
  have := hL j hj
  split at hb
  · simp at hb; subst hb; exact ⟨by simp [Block.valid]; omega, hj⟩
  · split at hb
    · simp at hb; subst hb; exact ⟨by simp [Block.valid]; omega, hj⟩
    · simp at hb

theorem honourBlocks_used {h : List Int} {L : List Nat} (hL : ∀ j ∈ L, 27 ≤ j ∧ j < 34) (hn : L.Nodup)
    (hnn : ∀ j, 0 ≤ at37 h j) (j : Nat) : (used (honourBlocks h L) j : Int) ≤ at37 h j ∧ (j ∉ L → used (honourBlocks h L) j = 0) := by
  induction L with
  | nil => exact ⟨hnn j, fun _ => rfl⟩
  | cons k L ih =>
    have hn' := List.nodup_cons.1 hn
    obtain ⟨i1, i2⟩ := ih (fun j hj => hL j (by simp [hj])) hn'.2
    have e : honourBlocks h (k :: L) = (if 3 ≤ at37 h k then [.koutsu k] else if at37 h k = 2 then [.toitsu k] else []) ++
      honourBlocks h L := rfl
    rw [e, used_append]
    have hne : j ≠ k → used (if 3 ≤ at37 h k then [.koutsu k] else if at37 h k = 2 then [.toitsu k] else []) j = 0 := by
      intro hj
      split
      · rw [used_cons, used_nil]; simp [Block.uses, hj]
      · split
        · rw [used_cons, used_nil]; simp [Block.uses, hj]
        · rfl
    by_cases hj : j = k
    · subst hj
      have z := i2 hn'.1
      refine ⟨?_, fun hh => absurd (by simp) hh⟩
      have := hnn j
      split
      · rw [used_cons, used_nil, z]
        have : (Block.koutsu j).uses j = 3 := if_pos rfl
        omega
      · split
        · rw [used_cons, used_nil, z]
          have : (Block.toitsu j).uses j = 2 := if_pos rfl
          omega
        · rw [used_nil, z]; omega
    · rw [hne hj]
      refine ⟨by omega, fun hh => ?_⟩
      rw [i2 (fun h' => hh (by simp [h']))]

end MJ
