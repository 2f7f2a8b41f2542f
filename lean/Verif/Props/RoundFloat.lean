import Verif.Proofs.Float
/-!
C143: the counts of a round are kept in `float32`, and this loses nothing.
-/
namespace MJ

/-- `float32` arithmetic with some way of adding up an array -/
structure Arith.IsFloat32 (A : Arith) : Prop where
  rnd_eq : A.rnd = float32
  total_sum : ∀ l, SumOf float32 l (A.total l)

theorem Arith.IsFloat32.good {A : Arith} (h : A.IsFloat32) : A.Good :=
  ⟨fun n hn => by rw [h.rnd_eq]; exact float32_exact n hn, fun n hn => by rw [h.rnd_eq]; exact float32_ne_zero n hn,
    fun l => by rw [h.rnd_eq]; exact h.total_sum l⟩

/-- **C143.** Processing a round with `float32` counts gives exactly what processing it with whole numbers gives: the same
exception or the same state.  The order in which arrays are added up does not matter. -/
theorem C143_counts_exact (A : Arith) (hA : A.IsFloat32) (est : Estimate) (sh : List Int → Except PyErr Int) (g : GameInfo)
    (a : InitAttr) (evs : List Ev) (hl : ∀ p l, a.hai p = .ok l → l.length ≤ 100000) (hn : evs.length ≤ 100000) :
    processRoundF A est sh g a evs = processRound est sh g a evs :=
  processRoundF_eq hA.good est sh g a evs hl hn

/-- **C143.** All that is used about the rounding: whole numbers up to 2^24 are kept, and no other number becomes 0. -/
theorem C143_any_rounding (A : Arith) (hf : ∀ n : Int, n.natAbs ≤ 2 ^ 24 → A.rnd n = n) (hz : ∀ n : Int, n ≠ 0 → A.rnd n ≠ 0)
    (ht : ∀ l, SumOf A.rnd l (A.total l)) (est : Estimate) (sh : List Int → Except PyErr Int) (g : GameInfo)
    (a : InitAttr) (evs : List Ev) (hl : ∀ p l, a.hai p = .ok l → l.length ≤ 100000) (hn : evs.length ≤ 100000) :
    processRoundF A est sh g a evs = processRound est sh g a evs :=
  processRoundF_eq ⟨hf, hz, ht⟩ est sh g a evs hl hn

/-- **C143.** `float32` keeps the whole numbers up to 2^24 … -/
theorem C143_float32_exact (n : Int) (h : n.natAbs ≤ 2 ^ 24) : float32 n = n := float32_exact n h

/-- **C143.** … and no further: the next number is lost. -/
theorem C143_float32_limit : float32 (2 ^ 24 + 1) = 2 ^ 24 ∧ float32 (-(2 ^ 24 + 1)) = -2 ^ 24 := by decide +kernel

/-- **C143.** However an array of small numbers is added up in `float32`, the result is the sum. -/
theorem C143_sums_exact (l : List Int) (x : Int) (h : SumOf float32 l x) (hs : size l ≤ 2 ^ 24) : x = l.sum :=
  h.exact float32_exact hs

/-- **C143.** The counts stay small: after any number of events they are at most 57 plus four for each event. -/
theorem C143_counts_small (est : Estimate) (sh : List Int → Except PyErr Int) (g : GameInfo) (a : InitAttr) (evs : List Ev)
    (c : RoundCfg) (s0 s : RoundSt) (rest : Option (List Ev)) (h0 : initRound est sh g a = .ok (c, s0))
    (h : runEvents c evs s0 = .ok (s, rest)) (p k : Nat) :
    (s.hand_tensors p k).natAbs ≤ 57 + 4 * evs.length ∧ (s.hand_tensors_full p k).natAbs ≤ 57 + 4 * evs.length ∧
    (s.remaining_tiles k).natAbs ≤ 57 + 4 * evs.length ∧ (s.remaining_tiles_pov p k).natAbs ≤ 57 + 4 * evs.length := by
  have key : ∀ (evs : List Ev) (B : Nat) (s0 : RoundSt), Small (B + 1) s0 → runEvents c evs s0 = .ok (s, rest) →
      Small (B + 1 + 4 * evs.length) s := by
    intro evs
    induction evs with
    | nil =>
      intro B s0 hs h
      simp only [runEvents, Except.ok.injEq, Prod.mk.injEq] at h
      rw [← h.1]; exact hs
    | cons e es ih =>
      intro B s0 hs h
      have hm : ∀ x y, x ≤ y → Small x s → Small y s := fun x y hxy hs =>
        ⟨fun p => (hs.hands p).mono hxy, fun p => (hs.tensors p).mono hxy, fun p => (hs.full p).mono hxy,
          hs.remaining.mono hxy, fun p => (hs.pov p).mono hxy⟩
      have go : (match step c s0 e with
          | .error x => (Except.error x : Except PyErr (RoundSt × Option (List Ev)))
          | .ok s => runEvents c es s) = .ok (s, rest) → Small (B + 1 + 4 * (e :: es).length) s := by
        intro h
        cases hst : step c s0 e with
        | error x => rw [hst] at h; cases h
        | ok s1 =>
          rw [hst] at h
          exact hm _ _ (by simp only [List.length_cons]; omega) (ih (B + 4) s1 (hs.step hst) h)
      cases e with
      | result x y =>
        simp only [runEvents, Except.ok.injEq, Prod.mk.injEq] at h
        obtain ⟨rfl, _⟩ := h
        exact hm _ _ (Nat.le_add_right _ _) hs
      | _ => exact go h
  have := key evs 56 s0 (Small.init h0) h
  exact ⟨this.tensors p k, this.full p k, this.remaining k, this.pov p k⟩

/-- adding up from left to right, as Python's `sum` does -/
def float32Left : Arith := ⟨float32, fun l => l.foldl (fun x y => float32 (x + y)) 0⟩

/-- adding up the two halves separately -/
def pairwise : Nat → List Int → Int
  | 0, l => l.foldl (fun x y => float32 (x + y)) 0
  | n + 1, l => float32 (pairwise n (l.take (l.length / 2)) + pairwise n (l.drop (l.length / 2)))

theorem sumOf_left (m : List Int) : ∀ (l : List Int) (x : Int), SumOf float32 l x →
    SumOf float32 (l ++ m) (m.foldl (fun x y => float32 (x + y)) x) := by
  induction m with
  | nil => intro l x h; rw [List.append_nil]; exact h
  | cons y m ih =>
    intro l x h
    have := ih (l ++ [y]) (float32 (x + y)) (.add h (.one y))
    rw [List.append_assoc, List.singleton_append] at this
    exact this

/-- **C143.** Adding up from left to right and adding up pairwise are covered. -/
theorem C143_orders_covered : float32Left.IsFloat32 ∧ ∀ n, Arith.IsFloat32 ⟨float32, pairwise n⟩ := by
  refine ⟨⟨rfl, fun l => sumOf_left l [] 0 .nil⟩, fun n => ⟨rfl, ?_⟩⟩
  show ∀ l, SumOf float32 l (pairwise n l)
  induction n with
  | zero => exact fun l => sumOf_left l [] 0 .nil
  | succ n ih =>
    intro l
    have := SumOf.add (ih (l.take (l.length / 2))) (ih (l.drop (l.length / 2)))
    rw [List.take_append_drop] at this
    exact this

/-- 34 entries far too large for a count are enough to go wrong: the order begins to matter -/
example : float32Left.total [16777216, 1, 1] = 16777216 ∧ float32Left.total [1, 1, 16777216] = 16777218 := by decide +kernel

end MJ
