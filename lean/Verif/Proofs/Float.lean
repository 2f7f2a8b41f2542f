import Verif.Model.RoundFloat
import Verif.Proofs.RoundInit
/-!
Rounding does nothing to small whole numbers, and the counts of a round stay small.
-/
namespace MJ
open Code

/-! ### float32 -/

theorem roundAt_zero (n : Int) : roundAt 0 n = n := by
  unfold roundAt
  simp only [Int.pow_zero, Int.ediv_one, Int.mul_one, Int.emod_one]
  rw [if_pos (by decide)]

/-- `float32` stores whole numbers up to 2^24 exactly -/
theorem float32_exact (n : Int) (h : n.natAbs ≤ 2 ^ 24) : float32 n = n := by
  unfold float32
  by_cases hn : n.natAbs = 2 ^ 24
  · rcases Int.natAbs_eq n with e | e <;> rw [hn] at e <;> subst e <;> decide +kernel
  · have h0 : n.natAbs.log2 < 24 := by
      by_cases hz : n.natAbs = 0
      · rw [hz]; decide
      · exact (Nat.log2_lt hz).2 (by omega)
    have : n.natAbs.log2 + 1 - 24 = 0 := by omega
    rw [this, roundAt_zero]

/-- `float32` stores a whole number other than 0 as a number other than 0 -/
theorem float32_ne_zero (n : Int) (h : n ≠ 0) : float32 n ≠ 0 := by
  by_cases hs : n.natAbs ≤ 2 ^ 24
  · rw [float32_exact n hs]; exact h
  · unfold float32
    have hz : n.natAbs ≠ 0 := by omega
    have hl : 2 ^ n.natAbs.log2 ≤ n.natAbs := Nat.log2_self_le hz
    have h24 : 24 ≤ n.natAbs.log2 := (Nat.le_log2 hz).2 (by omega)
    generalize he : n.natAbs.log2 + 1 - 24 = e
    have he' : n.natAbs.log2 = e + 23 := by omega
    rw [he', Nat.pow_add] at hl
    have hp : 0 < 2 ^ e := Nat.two_pow_pos e
    have hbig : 2 * 2 ^ e ≤ n.natAbs := by
      have : (2 : Nat) ^ e * 2 ≤ 2 ^ e * 2 ^ 23 := Nat.mul_le_mul_left _ (by decide)
      omega
    generalize hm : (2 : Nat) ^ e = m at *
    have hmi : (2 : Int) ^ e = (m : Int) := by rw [← hm]; norm_cast
    unfold roundAt
    rw [hmi]
    have hmpos : (0 : Int) < m := by omega
    have hdiv := Int.mul_ediv_add_emod n m
    have hr0 := Int.emod_nonneg n (show (m : Int) ≠ 0 by omega)
    have hr1 := Int.emod_lt_of_pos n hmpos
    generalize n / (m : Int) = q at *
    generalize n % (m : Int) = r at *
    have hq : q ≠ 0 ∧ q + 1 ≠ 0 := by
      constructor
      · rintro rfl
        simp only [Int.mul_zero, Int.zero_add] at hdiv
        omega
      · intro hq1
        have : q = -1 := by omega
        subst this
        simp only [Int.mul_neg, Int.mul_one] at hdiv
        omega
    dsimp only
    repeat' split
    · exact Int.mul_ne_zero hq.1 (by omega)
    · exact Int.mul_ne_zero hq.2 (by omega)
    · exact Int.mul_ne_zero hq.1 (by omega)
    · exact Int.mul_ne_zero hq.2 (by omega)

example : float32 16777217 = 16777216 ∧ float32 16777219 = 16777220 ∧ float32 (-33554433) = -33554432 := by
  decide +kernel

/-- the results of adding up a list in any order, two numbers at a time, rounding after each addition -/
inductive SumOf (rnd : Int → Int) : List Int → Int → Prop where
  | nil : SumOf rnd [] 0
  | one (x : Int) : SumOf rnd [x] x
  | add {l m : List Int} {x y : Int} (h : SumOf rnd l x) (h' : SumOf rnd m y) : SumOf rnd (l ++ m) (rnd (x + y))
  | perm {l m : List Int} {x : Int} (h : SumOf rnd l x) (p : l.Perm m) : SumOf rnd m x

/-- an arithmetic that gets small whole numbers right -/
structure Arith.Good (A : Arith) : Prop where
  fix : ∀ n : Int, n.natAbs ≤ 2 ^ 24 → A.rnd n = n
  ne_zero : ∀ n : Int, n ≠ 0 → A.rnd n ≠ 0
  total : ∀ l, SumOf A.rnd l (A.total l)

/-- the sum of the sizes -/
def size (l : List Int) : Nat := (l.map Int.natAbs).sum

theorem size_append (l m : List Int) : size (l ++ m) = size l + size m := by simp [size]

theorem size_perm {l m : List Int} (h : l.Perm m) : size l = size m := by
  induction h with
  | nil => rfl
  | cons x _ ih => simp only [size, List.map_cons, List.sum_cons] at *; omega
  | swap x y l => simp only [size, List.map_cons, List.sum_cons]; omega
  | trans _ _ ih ih' => exact ih.trans ih'

theorem perm_sum {l m : List Int} (h : l.Perm m) : l.sum = m.sum := by
  induction h with
  | nil => rfl
  | cons x _ ih => simp only [List.sum_cons]; omega
  | swap x y l => simp only [List.sum_cons]; omega
  | trans _ _ ih ih' => exact ih.trans ih'

theorem natAbs_sum_le (l : List Int) : l.sum.natAbs ≤ size l := by
  induction l with
  | nil => simp [size]
  | cons x l ih =>
    simp only [List.sum_cons, size, List.map_cons] at *
    omega

theorem SumOf.exact {rnd : Int → Int} (hf : ∀ n : Int, n.natAbs ≤ 2 ^ 24 → rnd n = n) {l : List Int} {x : Int}
    (h : SumOf rnd l x) (hs : size l ≤ 2 ^ 24) : x = l.sum := by
  induction h with
  | nil => rfl
  | one x => simp
  | @add l m x y h h' ih ih' =>
    rw [size_append] at hs
    have e1 := ih (by omega)
    have e2 := ih' (by omega)
    subst e1 e2
    have h1 := natAbs_sum_le l
    have h2 := natAbs_sum_le m
    rw [hf _ (by omega), List.sum_append]
  | perm h p ih =>
    rw [← size_perm p] at hs
    rw [ih hs, perm_sum p]

theorem size_le (l : List Int) (B : Nat) (h : ∀ x ∈ l, x.natAbs ≤ B) : size l ≤ l.length * B := by
  induction l with
  | nil => simp [size]
  | cons x l ih =>
    have h1 := h x (by simp)
    have h2 := ih (fun y hy => h y (by simp [hy]))
    simp only [size, List.map_cons, List.sum_cons, List.length_cons, Nat.succ_mul] at *
    omega

theorem Arith.Good.total_eq {A : Arith} (g : A.Good) (l : List Int) (B : Nat) (h : ∀ x ∈ l, x.natAbs ≤ B)
    (hB : l.length * B ≤ 2 ^ 24) : A.total l = l.sum :=
  (g.total l).exact g.fix (Nat.le_trans (size_le l B h) hB)

/-! ### the arrays -/

/-- all entries are at most `B` in size -/
def Within (B : Nat) (f : Nat → Int) : Prop := ∀ k, (f k).natAbs ≤ B

theorem Within.mono {B C : Nat} {f : Nat → Int} (h : Within B f) (hc : B ≤ C) : Within C f :=
  fun k => Nat.le_trans (h k) hc

theorem Within.addAt {B : Nat} {f : Nat → Int} (h : Within B f) (idx : List Nat) {d : Int} (hd : d.natAbs ≤ 1) :
    Within (B + 1) (addAt f idx d) := by
  intro k
  have := h k
  unfold MJ.addAt
  split <;> omega

theorem addAtF_eq {A : Arith} (g : A.Good) {B : Nat} {f : Nat → Int} (h : Within B f) (hB : B + 1 ≤ 2 ^ 24)
    (idx : List Nat) {d : Int} (hd : d.natAbs ≤ 1) : addAtF A f idx d = addAt f idx d := by
  funext k
  unfold addAtF addAt
  have := h k
  rw [g.fix _ (by omega)]

theorem Within.setRow {B : Nat} {f : Nat → Nat → Int} (h : ∀ p, Within B (f p)) (p : Nat) {r : Nat → Int}
    (hr : Within B r) (q : Nat) : Within B (setAt f p r q) := by
  by_cases hq : q = p
  · subst hq; rw [setAt_same]; exact hr
  · rw [setAt_ne _ _ _ _ hq]; exact h q

theorem Within.addRow {B : Nat} {f : Nat → Nat → Int} (h : ∀ p, Within B (f p)) (p : Nat) (idx : List Nat) {d : Int}
    (hd : d.natAbs ≤ 1) (q : Nat) : Within (B + 1) (addRow f p idx d q) :=
  Within.setRow (fun p => (h p).mono (Nat.le_succ B)) p ((h p).addAt idx hd) q

theorem addRowF_eq {A : Arith} (g : A.Good) {B : Nat} {f : Nat → Nat → Int} (h : ∀ p, Within B (f p))
    (hB : B + 1 ≤ 2 ^ 24) (p : Nat) (idx : List Nat) {d : Int} (hd : d.natAbs ≤ 1) :
    addRowF A f p idx d = addRow f p idx d := by
  unfold addRowF addRow
  rw [addAtF_eq g (h p) hB idx hd]

theorem countTilesF_eq {A : Arith} (g : A.Good) (tiles : List Nat) {d : Int} (hd : d.natAbs ≤ 1) :
    ∀ {B : Nat} {f : Nat → Int}, Within B f → B + tiles.length ≤ 2 ^ 24 →
      countTilesF A tiles f d = countTiles tiles f d ∧ Within (B + tiles.length) (countTiles tiles f d) := by
  induction tiles with
  | nil => intro B f h _; exact ⟨rfl, h⟩
  | cons t l ih =>
    intro B f h hB
    simp only [List.length_cons] at hB
    simp only [countTilesF, countTiles, List.foldl_cons, List.length_cons] at *
    rw [addAtF_eq g h (by omega) _ hd]
    have := ih (h.addAt (tile2idx t) hd) (by omega)
    refine ⟨this.1, this.2.mono (by omega)⟩

theorem seeExposedF_eq {A : Arith} (g : A.Good) (tiles : List Nat) :
    ∀ {B : Nat} {f : Nat → Int}, Within B f → B + 2 * tiles.length ≤ 2 ^ 24 →
      seeExposedF A tiles f = seeExposed tiles f := by
  induction tiles with
  | nil => intro B f h _; rfl
  | cons t l ih =>
    intro B f h hB
    simp only [List.length_cons] at hB
    have inner : ∀ (is : List Nat) {B : Nat} {f : Nat → Int}, Within B f → B + is.length ≤ 2 ^ 24 →
        is.foldl (fun f ee => addAtF A f [ee] (-1)) f = is.foldl (fun f ee => addAt f [ee] (-1)) f ∧
        Within (B + is.length) (is.foldl (fun f ee => addAt f [ee] (-1)) f) := by
      intro is
      induction is with
      | nil => intro B f h _; exact ⟨rfl, h⟩
      | cons i is ih2 =>
        intro B f h hB
        simp only [List.length_cons] at hB
        simp only [List.foldl_cons, List.length_cons]
        rw [addAtF_eq g h (by omega) _ (by decide)]
        have := ih2 (h.addAt [i] (d := -1) (by decide)) (by omega)
        exact ⟨this.1, this.2.mono (by omega)⟩
    have hlen : (tile2idx t).length ≤ 2 := by
      unfold tile2idx; repeat' split
      all_goals simp
    obtain ⟨e1, e2⟩ := inner (tile2idx t) h (by omega)
    simp only [seeExposedF, seeExposed, List.foldl_cons] at *
    rw [e1]
    exact ih e2 (by omega)

theorem Within.seeExposed {B : Nat} {f : Nat → Int} (h : Within B f) (tiles : List Nat) :
    Within (B + tiles.length) (seeExposed tiles f) := by
  intro k
  rw [seeExposed_eq]
  have := h k
  have : cnt tiles k ≤ tiles.length := List.countP_le_length
  omega

theorem exposeF_eq {A : Arith} (g : A.Good) (p : Nat) (tiles : List Nat) :
    ∀ {B : Nat} {hands ht : Nat → Nat → Int}, (∀ q, Within B (hands q)) → (∀ q, Within B (ht q)) →
      B + tiles.length ≤ 2 ^ 24 → exposeF A p tiles (hands, ht) = expose p tiles (hands, ht) := by
  induction tiles with
  | nil => intro B hands ht _ _ _; rfl
  | cons t l ih =>
    intro B hands ht h1 h2 hB
    simp only [List.length_cons] at hB
    simp only [exposeF, expose]
    rw [addRowF_eq g h1 (by omega) _ _ (by decide), addRowF_eq g h2 (by omega) _ _ (by decide),
      ih (fun q => Within.addRow h1 p [t] (by decide) q) (fun q => Within.addRow h2 p (tile2idx t) (by decide) q) (by omega)]

/-! ### decision.py -/

theorem bothF_eq {A : Arith} (g : A.Good) (h : Hand) (i j : Int) : bothF A h i j = (slot h i * slot h j != 0) := by
  unfold bothF
  by_cases hz : slot h i * slot h j = 0
  · rw [hz, g.fix 0 (by decide)]
  · have := g.ne_zero _ hz
    rw [bne_iff_ne.2 this, bne_iff_ne.2 hz]

theorem blackFivesF_eq {A : Arith} (g : A.Good) {B : Nat} {h : Hand} (hb : Within B h) (hB : B + 1 ≤ 2 ^ 24) (t : Nat) :
    blackFivesF A h t = blackFives h t := by
  unfold blackFivesF blackFives
  have := hb t
  have : (hasRed h t).toNat ≤ 1 := by cases hasRed h t <;> decide
  exact g.fix _ (by omega)

theorem decisionMaskF_eq {A : Arith} (g : A.Good) {B : Nat} {hands : Nat → Nat → Int} (hb : ∀ p, Within B (hands p))
    (hB : B + 1 ≤ 2 ^ 24) (player t : Nat) (red : Bool) :
    decisionMaskF A player hands t red = decisionMask player hands t red := by
  have key : ∀ p, maskForF A player p (hands p) t red = maskFor player p (hands p) t red := by
    intro p
    have e := bothF_eq g (hands p)
    have f := blackFivesF_eq g (hb p) hB
    simp only [maskForF, maskFor, oneAndNineF, oneAndNine, twoAndEightF, twoAndEight, threeAndSevenF, threeAndSeven,
      fourAndSixF, fourAndSix, fiveF, five, fiveRunF, fiveRun, fivePonF, fivePon, e, f]
  simp only [decisionMaskF, decisionMask, key]

/-! ### agari.py -/

theorem ronStepF_eq {A : Arith} (g : A.Good) {B : Nat} (est : Estimate) (player : Nat) (a : WinArgs)
    (sutehai : Nat → Nat → Int) (tile idx : Nat) (ck : Bool) (rh : Nat → Bool) (p : Nat)
    (st : (Nat → Nat → Int) × List (Option AgariDecision)) (hb : ∀ p, Within B (st.1 p)) (hB : B + 1 ≤ 2 ^ 24) :
    ronStepF A est player a sutehai tile idx ck rh p st = ronStep est player a sutehai tile idx ck rh p st := by
  have e1 : A.rnd (st.1 p idx + 1) = st.1 p idx + 1 := by
    have := hb p idx
    exact g.fix _ (by omega)
  have e2 : A.rnd (setAt st.1 p (setAt (st.1 p) idx (st.1 p idx + 1)) p idx - 1) =
      setAt st.1 p (setAt (st.1 p) idx (st.1 p idx + 1)) p idx - 1 := by
    have := hb p idx
    rw [setAt_same, setAt_same]
    exact g.fix _ (by omega)
  simp only [ronStepF, ronStep, e1, e2]
  rfl

theorem ronF_eq {A : Arith} (g : A.Good) {B : Nat} (est : Estimate) (player : Nat) (hands : Nat → Nat → Int) (a : WinArgs)
    (sutehai : Nat → Nat → Int) (tile : Nat) (ck : Bool) (rh : Nat → Bool) (hb : ∀ p, Within B (hands p))
    (hB : B + 1 ≤ 2 ^ 24) :
    evaluate_ronF A est player hands a sutehai tile ck rh = evaluate_ron est player hands a sutehai tile ck rh := by
  have loop : ∀ (l : List Nat) (st : (Nat → Nat → Int) × List (Option AgariDecision)), st.1 = hands →
      ronLoopF A est player a sutehai tile ((tile2idx tile).headD 0) ck rh l st =
        ronLoop est player a sutehai tile ((tile2idx tile).headD 0) ck rh l st := by
    intro l
    induction l with
    | nil => intro st _; rfl
    | cons p l ih =>
      intro st hst
      simp only [ronLoopF, ronLoop]
      rw [ronStepF_eq g est player a sutehai tile _ ck rh p st (by rw [hst]; exact hb) hB]
      cases hr : ronStep est player a sutehai tile ((tile2idx tile).headD 0) ck rh p st with
      | error e => rfl
      | ok st' =>
        obtain ⟨x, y⟩ := st
        have := (ronStep_ok est player a sutehai tile _ ck rh p x y st' hr).1
        exact ih st' (this.trans hst)
  simp only [evaluate_ronF, evaluate_ron, loop _ (hands, _) rfl]

/-! ### the state of a round -/

/-- all counts are at most `B` in size -/
structure Small (B : Nat) (s : RoundSt) : Prop where
  hands : ∀ p, Within B (s.hands p)
  tensors : ∀ p, Within B (s.hand_tensors p)
  full : ∀ p, Within B (s.hand_tensors_full p)
  remaining : Within B s.remaining_tiles
  pov : ∀ p, Within B (s.remaining_tiles_pov p)

theorem sum34F_eq {A : Arith} (g : A.Good) {B : Nat} {f : Nat → Int} (h : Within B f) (hB : 34 * B ≤ 2 ^ 24) :
    sum34F A f = sum34 f := by
  unfold sum34F sum34
  refine g.total_eq _ B ?_ (by simpa using hB)
  intro x hx
  obtain ⟨k, _, rfl⟩ := List.mem_map.1 hx
  exact h k

theorem exposed_length {c : Nat} {ex : List Nat} {acq : Option Nat} (h : get_exposed c = .ok (ex, acq)) : ex.length ≤ 4 := by
  have er : ∀ (l : List Nat) (i : Nat), l.length ≤ 4 → (l.eraseIdx i).length ≤ 4 := by
    intro l i hl
    exact Nat.le_trans (List.length_eraseIdx_le _ _) hl
  unfold get_exposed at h
  repeat' split at h
  all_goals first | cases h | skip
  · exact er _ _ (by simp)
  · refine er _ _ ?_
    rw [List.length_map]
    exact Nat.le_trans (List.length_filter_le _ _) (by simp)
  · simp [pattern_kakan]
  · exact er _ _ (by simp)
  · simp [pattern_ankan]

theorem bind_same {α β : Type} {x : Except PyErr α} {f f' : α → Except PyErr β} (h : ∀ a, x = .ok a → f a = f' a) :
    (x >>= f) = (x >>= f') := by
  cases x with
  | error e => rfl
  | ok a => exact h a rfl

theorem stepDoraF_eq {A : Arith} (g : A.Good) {B : Nat} {s : RoundSt} (hs : Small B s) (hB : B + 1 ≤ 2 ^ 24)
    (hai : Except PyErr Nat) : stepDoraF A s hai = stepDora s hai := by
  have e : ∀ idx, (fun p => addAtF A (s.remaining_tiles_pov p) idx (-1)) = fun p => addAt (s.remaining_tiles_pov p) idx (-1) :=
    fun idx => funext fun p => addAtF_eq g (hs.pov p) hB idx (by decide)
  simp only [stepDoraF, stepDora, addAtF_eq g hs.remaining hB _ (d := -1) (by decide), e]

theorem chankanF_eq {A : Arith} (g : A.Good) {B : Nat} (c : RoundCfg) {s : RoundSt}
    (hs : ∀ p, Within B (s.hand_tensors_full p)) (hB : B + 1 ≤ 2 ^ 24) (p : Nat) (ex : List Nat) (o : StateObj) :
    chankanF A c s p ex o = chankan c s p ex o := by
  simp only [chankanF, chankan]
  rw [ronF_eq g _ _ _ _ _ _ _ _ hs hB]

theorem nakiTilesF_eq {A : Arith} (g : A.Good) {B : Nat} {s : RoundSt} (hs : Small B s) (p : Nat) (ex : List Nat)
    (acq : Option Nat) (hB : B + 2 * ex.length + 1 ≤ 2 ^ 24) : nakiTilesF A s p ex acq = nakiTiles s p ex acq := by
  simp only [nakiTilesF, nakiTiles]
  rw [exposeF_eq g p ex hs.hands hs.tensors (by omega)]
  have e : ∀ i, seeExposedF A ex (s.remaining_tiles_pov i) = seeExposed ex (s.remaining_tiles_pov i) :=
    fun i => seeExposedF_eq g ex (hs.pov i) (by omega)
  have f : ∀ a, addRowF A s.hand_tensors_full p (tile2idx a) 1 = addRow s.hand_tensors_full p (tile2idx a) 1 :=
    fun a => addRowF_eq g hs.full (by omega) p _ (by decide)
  simp only [e, f]
  rfl

theorem stepNakiF_eq {A : Arith} (g : A.Good) {B : Nat} (c : RoundCfg) {s : RoundSt} (hs : Small B s)
    (hB : B + 9 ≤ 2 ^ 24) (m who : Except PyErr Nat) : stepNakiF A c s m who = stepNaki c s m who := by
  simp only [stepNakiF, stepNaki]
  refine bind_same fun _ _ => bind_same fun code _ => bind_same fun naki _ => bind_same fun p _ => bind_same fun _ _ =>
    bind_same fun token _ => bind_same fun s1 hmark => bind_same fun x hex => ?_
  obtain ⟨ex, acq⟩ := x
  obtain ⟨i, t, _, _, _, rfl⟩ := nakiMark_ok hmark
  have hlen := exposed_length hex
  have hsm : ∀ (b : Bool) (x y : RoundSt), Small B x → Small B y → Small B (if b = true then x else y) := by
    intro b x y hx hy; cases b
    · exact hy
    · exact hx
  have sm := hsm (!is_chi code && !is_pon code) _ _
    (show Small B { s with
      acquired := none
      cycles := s.cycles + (((p : Int) - Code.from_who code) % 4).toNat
      melds := setAt s.melds p (s.melds p ++ [naki])
      encoding_tokens := s.encoding_tokens ++ [token]
      halfturns := s.halfturns.set i (HalfTurn.mark naki.convenient_naki_code t)
      remaining_tsumo := s.remaining_tsumo - 1 } from ⟨hs.hands, hs.tensors, hs.full, hs.remaining, hs.pov⟩)
    (show Small B { s with
      acquired := none
      cycles := s.cycles + (((p : Int) - Code.from_who code) % 4).toNat
      melds := setAt s.melds p (s.melds p ++ [naki])
      encoding_tokens := s.encoding_tokens ++ [token]
      halfturns := s.halfturns.set i (HalfTurn.mark naki.convenient_naki_code t) } from
      ⟨hs.hands, hs.tensors, hs.full, hs.remaining, hs.pov⟩)
  rw [nakiTilesF_eq g sm p ex acq (by omega)]
  refine bind_same fun s2 htiles => ?_
  obtain ⟨_, _, hands', ht', _, rfl⟩ := nakiTiles_ok htiles
  have hg : ∀ f : Nat → Nat → Int, (∀ q, Within B (f q)) → ∀ q, Within (B + 1) (gain f p acq q) := by
    intro f hf q
    cases acq with
    | none => exact (hf q).mono (Nat.le_succ B)
    | some a => exact Within.addRow hf p _ (by decide) q
  have e := fun (s : RoundSt) (h : ∀ q, Within (B + 1) (s.hand_tensors_full q)) o =>
    chankanF_eq g c (s := s) h (show B + 1 + 1 ≤ 2 ^ 24 by omega) p ex o
  rw [e _ (hg _ sm.full)]

theorem Small.drawTile {B : Nat} {s : RoundSt} (hs : Small (B + 1) s) (p t : Nat) : Small (B + 2) (drawTile s p t) :=
  ⟨fun q => Within.setRow (fun p => (hs.hands p).mono (Nat.le_succ _)) p
      (by
        intro k
        have := hs.hands p k
        unfold setAt
        split
        · simp
        · omega) q,
   Within.addRow hs.tensors p _ (by decide), Within.addRow hs.full p _ (by decide), hs.remaining.addAt _ (by decide),
   Within.addRow hs.pov p _ (by decide)⟩

theorem drawTileF_eq {A : Arith} (g : A.Good) {B : Nat} {s : RoundSt} (hs : Small B s) (hB : B + 1 ≤ 2 ^ 24) (p t : Nat) :
    drawTileF A s p t = drawTile s p t := by
  simp only [drawTileF, drawTile, addAtF_eq g hs.remaining hB _ (d := -1) (by decide),
    addRowF_eq g hs.pov hB p _ (d := -1) (by decide), addRowF_eq g hs.tensors hB p _ (d := 1) (by decide),
    addRowF_eq g hs.full hB p _ (d := 1) (by decide)]

theorem stepDrawF_eq {A : Arith} (g : A.Good) {B : Nat} (c : RoundCfg) {s : RoundSt} (hs : Small (B + 1) s)
    (hB : 34 * (B + 2) ≤ 2 ^ 24) (p : Nat) (tile : Except PyErr Nat) : stepDrawF A c s p tile = stepDraw c s p tile := by
  simp only [stepDrawF, stepDraw, drawTileF_eq g hs (show B + 1 + 1 ≤ 2 ^ 24 by omega),
    fun t => sum34F_eq g ((hs.drawTile p t).tensors p) hB]

theorem Small.discardTile {B : Nat} {s : RoundSt} (hs : Small B s) (p t : Nat) : Small (B + 2) (discardTile s p t) :=
  ⟨fun q => Within.setRow (fun p => (hs.hands p).mono (by omega)) p
      (by
        intro k
        have := hs.hands p k
        unfold setAt
        split
        · simp
        · omega) q,
   fun q => (Within.addRow hs.tensors p _ (by decide) q).mono (by omega),
   fun q => (Within.addRow hs.full p _ (by decide) q).mono (by omega), hs.remaining.mono (by omega),
   Within.addRow (fun q => (hs.pov q).addAt _ (by decide)) p _ (by decide)⟩

theorem discardTileF_eq {A : Arith} (g : A.Good) {B : Nat} {s : RoundSt} (hs : Small B s) (hB : B + 2 ≤ 2 ^ 24) (p t : Nat) :
    discardTileF A s p t = discardTile s p t := by
  have e : (fun q => addAtF A (s.remaining_tiles_pov q) (tile2idx t) (-1)) =
      fun q => addAt (s.remaining_tiles_pov q) (tile2idx t) (-1) :=
    funext fun q => addAtF_eq g (hs.pov q) (by omega) _ (by decide)
  simp only [discardTileF, discardTile, e, addRowF_eq g hs.tensors (show B + 1 ≤ 2 ^ 24 by omega) p _ (d := -1) (by decide),
    addRowF_eq g hs.full (show B + 1 ≤ 2 ^ 24 by omega) p _ (d := -1) (by decide)]
  rw [addRowF_eq g (B := B + 1) (fun q => (hs.pov q).addAt (tile2idx t) (by decide)) (by omega) p _ (by decide)]

theorem stepDiscardF_eq {A : Arith} (g : A.Good) {B : Nat} (c : RoundCfg) {s : RoundSt} (hs : Small B s)
    (hB : 34 * (B + 2) ≤ 2 ^ 24) (p : Nat) (tile : Except PyErr Nat) :
    stepDiscardF A c s p tile = stepDiscard c s p tile := by
  simp only [stepDiscardF, stepDiscard]
  refine bind_same fun _ _ => bind_same fun _ _ => bind_same fun t _ => bind_same fun _ _ => bind_same fun _ _ =>
    bind_same fun o _ => ?_
  have hs' : Small B { s with halfturns := s.halfturns ++ [.discard p o s.encoding_tokens.length t] } :=
    ⟨hs.hands, hs.tensors, hs.full, hs.remaining, hs.pov⟩
  have hd := hs'.discardTile p t
  rw [discardTileF_eq g hs' (by omega) p t, sum34F_eq g (hd.tensors p) hB]
  simp only [ronF_eq g _ _ _ _ _ _ _ _ hd.full (show B + 2 + 1 ≤ 2 ^ 24 by omega),
    decisionMaskF_eq g hd.tensors (show B + 2 + 1 ≤ 2 ^ 24 by omega)]

theorem stepF_eq {A : Arith} (g : A.Good) {B : Nat} (c : RoundCfg) {s : RoundSt} (hs : Small (B + 1) s)
    (hB : 34 * (B + 4) ≤ 2 ^ 24) (e : Ev) : stepF A c s e = step c s e := by
  cases e with
  | dora hai => exact stepDoraF_eq g hs (by omega) hai
  | reach who one => rfl
  | naki m who => exact stepNakiF_eq g c hs (by omega) m who
  | draw p t => exact stepDrawF_eq g c hs (by omega) p t
  | discard p t => exact stepDiscardF_eq g c hs (by omega) p t
  | result a b => rfl
  | other => rfl

/-- an event changes each count by at most 4 -/
theorem Small.step {B : Nat} {c : RoundCfg} {s s' : RoundSt} {e : Ev} (hs : Small (B + 1) s) (h : step c s e = .ok s') :
    Small (B + 5) s' := by
  have up : ∀ {f : Nat → Int}, Within (B + 1) f → Within (B + 5) f := fun h => h.mono (by omega)
  cases e with
  | dora hai =>
    obtain ⟨t, token, _, _, _, rfl⟩ := stepDora_ok h
    exact ⟨fun p => up (hs.hands p), fun p => up (hs.tensors p), fun p => up (hs.full p),
      (hs.remaining.addAt _ (by decide)).mono (by omega), fun p => ((hs.pov p).addAt _ (by decide)).mono (by omega)⟩
  | reach who one =>
    obtain ⟨p, b, s1, _, _, _, h1, rfl⟩ := stepReach_ok h
    have : s1.hands = s.hands ∧ s1.hand_tensors = s.hand_tensors ∧ s1.hand_tensors_full = s.hand_tensors_full ∧
        s1.remaining_tiles = s.remaining_tiles ∧ s1.remaining_tiles_pov = s.remaining_tiles_pov := by
      cases b with
      | true =>
        obtain ⟨i, t, _, _, _, _, rfl⟩ := reachDeclare_ok (by simpa using h1)
        exact ⟨rfl, rfl, rfl, rfl, rfl⟩
      | false =>
        obtain ⟨i, t, sc, tok, _, _, _, _, _, _, rfl⟩ := reachAccept_ok (by simpa using h1)
        exact ⟨rfl, rfl, rfl, rfl, rfl⟩
    obtain ⟨e1, e2, e3, e4, e5⟩ := this
    exact ⟨fun p => by dsimp only; rw [e1]; exact up (hs.hands p), fun p => by dsimp only; rw [e2]; exact up (hs.tensors p),
      fun p => by dsimp only; rw [e3]; exact up (hs.full p), by dsimp only; rw [e4]; exact up hs.remaining,
      fun p => by dsimp only; rw [e5]; exact up (hs.pov p)⟩
  | naki m who =>
    obtain ⟨code, p, _, _, ⟨d⟩⟩ := stepNaki_ok h
    have hlen := exposed_length d.exposed_eq
    obtain ⟨_, _, h3, h4⟩ := expose_ok d.expose_eq
    rw [d.state_eq]
    refine ⟨?_, ?_, ?_, up hs.remaining, ?_⟩
    · intro q k
      dsimp only
      have := hs.hands q k
      rw [h3]
      split
      · simp
      · omega
    · intro q k
      dsimp only
      have := hs.tensors q k
      have : cnt d.ex k ≤ d.ex.length := List.countP_le_length
      rw [h4]
      split <;> omega
    · intro q
      dsimp only
      cases d.acq with
      | none => exact up (hs.full q)
      | some a => exact (Within.addRow hs.full p _ (by decide) q).mono (by omega)
    · intro q
      dsimp only
      split
      · exact up (hs.pov q)
      · exact ((hs.pov q).seeExposed d.ex).mono (by omega)
  | draw p tile =>
    obtain ⟨t, _, ⟨d⟩⟩ := stepDraw_ok h
    have := hs.drawTile p t
    rw [d.state_eq]
    exact ⟨fun q => (this.hands q).mono (by omega), fun q => (this.tensors q).mono (by omega),
      fun q => (this.full q).mono (by omega), this.remaining.mono (by omega), fun q => (this.pov q).mono (by omega)⟩
  | discard p tile =>
    obtain ⟨t, _, ⟨d⟩⟩ := stepDiscard_ok h
    have := hs.discardTile p t
    rw [d.state_eq]
    exact ⟨fun q => (this.hands q).mono (by omega), fun q => (this.tensors q).mono (by omega),
      fun q => (this.full q).mono (by omega), this.remaining.mono (by omega), fun q => (this.pov q).mono (by omega)⟩
  | result a b =>
    have : s = s' := by simpa [MJ.step] using h
    subst this
    exact ⟨fun q => up (hs.hands q), fun q => up (hs.tensors q), fun q => up (hs.full q), up hs.remaining,
      fun q => up (hs.pov q)⟩
  | other => simp [MJ.step] at h

theorem runEventsF_eq {A : Arith} (g : A.Good) (c : RoundCfg) (evs : List Ev) :
    ∀ {B : Nat} {s : RoundSt}, Small (B + 1) s → 34 * (B + 4 * evs.length) ≤ 2 ^ 24 →
      runEventsF A c evs s = runEvents c evs s := by
  induction evs with
  | nil => intro B s _ _; rfl
  | cons e es ih =>
    intro B s hs hB
    simp only [List.length_cons] at hB
    have go : (match stepF A c s e with
        | .error x => (Except.error x : Except PyErr (RoundSt × Option (List Ev)))
        | .ok s => runEventsF A c es s) = (match step c s e with
        | .error x => .error x
        | .ok s => runEvents c es s) := by
      rw [stepF_eq g c hs (by omega)]
      cases h : step c s e with
      | error x => rfl
      | ok s' => exact ih (B := B + 4) (hs.step h) (by omega)
    cases e with
    | result a b => rfl
    | _ => exact go

/-! ### the start of a round -/

theorem remainingTiles_within : Within 4 remainingTiles := by
  intro k
  unfold remainingTiles
  repeat' split
  all_goals decide

theorem initRoundF_eq {A : Arith} (g : A.Good) (est : Estimate) (sh : List Int → Except PyErr Int) (gi : GameInfo)
    (a : InitAttr) (L : Nat) (hl : ∀ p l, a.hai p = .ok l → l.length ≤ L) (hB : 34 * (4 * L + 5) ≤ 2 ^ 24) :
    initRoundF A est sh gi a = initRound est sh gi a := by
  simp only [initRoundF, initRound]
  refine bind_same fun scores _ => bind_same fun parent _ => bind_same fun _ _ => bind_same fun seed _ => bind_same fun x _ => ?_
  obtain ⟨r, hb, k, dora⟩ := x
  refine bind_same fun h0 e0 => bind_same fun h1 e1 => bind_same fun h2 e2 => bind_same fun h3 e3 => ?_
  have l0 := hl _ _ e0
  have l1 := hl _ _ e1
  have l2 := hl _ _ e2
  have l3 := hl _ _ e3
  have hlen : ∀ p : Nat, (if p = 0 then h0 else if p = 1 then h1 else if p = 2 then h2 else if p = 3 then h3 else []).length ≤ L := by
    intro p
    repeat' split
    all_goals first | assumption | simp
  have hall : (h0 ++ h1 ++ h2 ++ h3).length ≤ 4 * L := by
    simp only [List.length_append]; omega
  have a1 := countTilesF_eq g (h0 ++ h1 ++ h2 ++ h3) (d := -1) (by decide) remainingTiles_within (by omega)
  have a2 := addAtF_eq g a1.2 (by omega) (tile2idx dora) (d := -1) (by decide)
  have a3 := sum34F_eq g ((a1.2.addAt (tile2idx dora) (d := -1) (by decide)).mono (show _ ≤ 4 * L + 5 by omega)) hB
  have a4 : ∀ p : Nat, _ := fun p => countTilesF_eq g _ (d := -1) (by decide) remainingTiles_within
    (show 4 + (if p = 0 then h0 else if p = 1 then h1 else if p = 2 then h2 else if p = 3 then h3 else []).length ≤ 2 ^ 24 by
      have := hlen p; omega)
  have a5 : ∀ p : Nat, _ := fun p => addAtF_eq g (a4 p).2 (by have := hlen p; omega) (tile2idx dora) (d := -1) (by decide)
  have a6 : ∀ p : Nat, _ := fun p => countTilesF_eq g _ (d := 1) (by decide) (B := 0) (f := fun _ => 0) (fun _ => by simp)
    (show 0 + (if p = 0 then h0 else if p = 1 then h1 else if p = 2 then h2 else if p = 3 then h3 else []).length ≤ 2 ^ 24 by
      have := hlen p; omega)
  have a7 : ∀ p : Nat, A.total ((List.range 136).map (fun t =>
      if t ∈ (if p = 0 then h0 else if p = 1 then h1 else if p = 2 then h2 else if p = 3 then h3 else []) then (1 : Int) else 0)) =
      ((List.range 136).map (fun t =>
      if t ∈ (if p = 0 then h0 else if p = 1 then h1 else if p = 2 then h2 else if p = 3 then h3 else []) then (1 : Int) else 0)).sum := by
    intro p
    refine g.total_eq _ 1 ?_ (by simp)
    intro x hx
    obtain ⟨k, _, rfl⟩ := List.mem_map.1 hx
    generalize (if p = 0 then h0 else if p = 1 then h1 else if p = 2 then h2 else if p = 3 then h3 else []) = l
    split <;> decide
  simp only [a1.1, a2, a3, a7, fun p => (a4 p).1, a5, fun p => (a6 p).1]
  try rfl

theorem Small.init {est : Estimate} {sh : List Int → Except PyErr Int} {gi : GameInfo} {a : InitAttr} {c : RoundCfg}
    {s : RoundSt} (h : initRound est sh gi a = .ok (c, s)) : Small 57 s := by
  obtain ⟨d⟩ := initRound_ok h
  have hcnt : ∀ l k, cnt l k ≤ l.length := fun l k => List.countP_le_length
  have hlen : ∀ p, (d.hai p).length ≤ 13 := by
    intro p
    by_cases hp : p < 4
    · exact Nat.le_of_eq (d.hai_len p hp)
    · rw [d.hai_none p (by omega)]; simp
  rw [d.state_eq]
  refine ⟨?_, ?_, ?_, ?_, ?_⟩
  · intro p k; dsimp only; split <;> decide
  · intro p k
    dsimp only
    rw [countTiles_eq]
    have := hcnt (d.hai p) k
    have := hlen p
    omega
  · intro p k
    dsimp only
    rw [countTiles_eq]
    have := hcnt (d.hai p) k
    have := hlen p
    omega
  · refine Within.addAt (B := 56) ?_ _ (by decide)
    intro k
    rw [countTiles_eq]
    have h1 := hcnt (d.hai 0 ++ d.hai 1 ++ d.hai 2 ++ d.hai 3) k
    have h2 : (d.hai 0 ++ d.hai 1 ++ d.hai 2 ++ d.hai 3).length ≤ 52 := by
      have := hlen 0
      have := hlen 1
      have := hlen 2
      have := hlen 3
      simp only [List.length_append]; omega
    have h3 := remainingTiles_within k
    omega
  · intro p
    refine Within.addAt (B := 56) ?_ _ (by decide)
    intro k
    rw [countTiles_eq]
    have := hcnt (d.hai p) k
    have := hlen p
    have h3 := remainingTiles_within k
    omega

/-- rounding changes nothing -/
theorem processRoundF_eq {A : Arith} (g : A.Good) (est : Estimate) (sh : List Int → Except PyErr Int) (gi : GameInfo)
    (a : InitAttr) (evs : List Ev) (hl : ∀ p l, a.hai p = .ok l → l.length ≤ 100000) (hn : evs.length ≤ 100000) :
    processRoundF A est sh gi a evs = processRound est sh gi a evs := by
  simp only [processRoundF, processRound]
  rw [initRoundF_eq g est sh gi a 100000 hl (by decide)]
  refine bind_same fun x hx => ?_
  obtain ⟨c, s⟩ := x
  rw [show runEventsF A c evs s = runEvents c evs s from runEventsF_eq g c evs (B := 56) (Small.init hx) (by omega)]
  rfl

end MJ
