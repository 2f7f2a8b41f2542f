import Verif.Props.Verbose
import Verif.Props.PyInt
/-!
C162, C163: what is printed, character by character, and what is printed before an exception.
-/
namespace MJ
open Spec Printing

/-- C162: `int` reads a printed number as the number that was printed. -/
theorem C162_numbers (digit : Char → Option Nat) (space : Char → Bool) (k : Int) : intChars digit space (Printing.int k) = some k := by
  rw [C168_int]
  have hd : ∀ n, decimal n ≠ [] := by
    intro n h
    obtain ⟨c, l, h1, -⟩ := decimal_head n
    rw [h] at h1
    cases h1
  have hv : ∀ n, digitsValue ((decimal n).filterMap (digitOf digit space)) = n := by
    intro n
    have h : ∀ l : List Char, (∀ c ∈ l, c.isDigit = true) → l.filterMap (digitOf digit space) = l.map ascii := by
      intro l
      induction l with
      | nil => intro _; rfl
      | cons c cs ih =>
        intro hl
        rw [List.filterMap_cons_some (digitOf_ascii digit space (hl c (by simp))), ih (fun x hx => hl x (by simp [hx]))]
        rfl
    rw [h _ (decimal_isDigit n), decimal_value]
  cases k with
  | ofNat n =>
    refine ⟨[], [], decimal n, [], by simp [Printing.int], by simp, by simp, .inl rfl, digitText_ascii digit space (hd n) (decimal_isDigit n), ?_⟩
    rw [hv]
    simp
  | negSucc n =>
    refine ⟨[], ['-'], decimal (n + 1), [], by simp [Printing.int], by simp, by simp, .inr (.inr rfl),
      digitText_ascii digit space (hd _) (decimal_isDigit _), ?_⟩
    rw [hv]
    simp [Int.negSucc_eq]

/-- C162: a list is printed in brackets, its elements with a comma and a blank between them. -/
theorem C162_list (xs : List Text) : Printing.list xs = "[".toList ++ (", ".toList).intercalate xs ++ "]".toList := by
  have h : ∀ (x : Text) (xs : List Text), x ++ listRest xs = (", ".toList).intercalate (x :: xs) ++ "]".toList := by
    intro x xs
    induction xs generalizing x with
    | nil => simp [listRest, lit, List.intercalate]
    | cons y ys ih =>
      have := ih y
      simp only [listRest, lit, List.append_assoc] at *
      rw [this]
      simp [List.intercalate]
  cases xs with
  | nil => rfl
  | cons x xs =>
    rw [List.append_assoc, ← h]
    simp [Printing.list, lit]

/-- C163: the lines before the events of a round: the values of INIT and those of `RoundInfo`. -/
theorem C163_header (g : GameInfo) (scores : List Int) (parent : Text) (r honba kyotaku : Nat) :
    header g scores parent r honba kyotaku =
      ["Scores: ".toList ++ Printing.list (scores.map Printing.int), "Parent: ".toList ++ parent,
       "Current round: ".toList ++ Printing.int r, "Honba: ".toList ++ Printing.int honba, "Kyotaku: ".toList ++ Printing.int kyotaku,
       "Remaining rounds: ".toList ++ Printing.int (RoundInfo.init g r).remaining_rounds,
       "Parent rounds remaining: ".toList ++ Printing.list ((RoundInfo.init g r).parent_rounds_remaining.map Printing.int),
       "\n====================\n".toList] := by
  have hn : (g.n_rounds : Int) = 4 * (g.tonnan + 1) := by
    simp [GameInfo.n_rounds]
  unfold header RoundInfo.init
  dsimp only
  rw [hn, List.map_map]
  rfl

/-- C163: an exception in a later round takes nothing back: the lines of the rounds before it are all printed, then what is said of
the rest. -/
theorem C163_kept (arr : Arrays) (pi : PyInt) (est : Estimate) (sh : List Int → Except PyErr Int) (g : GameInfo) (before after : List (List Item))
    {said : List Text} {l : List RoundSt} (h : verboseRounds arr pi est sh g before = (said, .ok l)) :
    (verboseRounds arr pi est sh g (before ++ after)).1 = said ++ (verboseRounds arr pi est sh g after).1 := by
  induction before generalizing said l with
  | nil =>
    simp only [verboseRounds, Prod.mk.injEq] at h
    rw [← h.1]
    rfl
  | cons round rounds ih =>
    cases round with
    | nil => simp [verboseRounds] at h
    | cons i rest =>
      simp only [List.cons_append, verboseRounds] at h ⊢
      split at h
      · next hi =>
        rw [if_pos hi]
        cases hr : verboseRound arr est sh g (toInit pi i) (oyaText i) (rest.map (toEv pi)) with
        | mk s1 o1 =>
          rw [hr] at h
          cases o1 with
          | error e => simp at h
          | ok st =>
            dsimp only at h ⊢
            cases hb : verboseRounds arr pi est sh g rounds with
            | mk s2 o2 =>
              rw [hb] at h
              cases o2 with
              | error e => simp at h
              | ok l2 =>
                simp only [Prod.mk.injEq] at h
                have := ih hb
                cases ha : verboseRounds arr pi est sh g (rounds ++ after) with
                | mk s3 o3 =>
                  rw [ha] at this
                  dsimp only at this
                  cases o3 <;> simp [← h.1, this]
      · simp at h

/-- the header of the second round of a game of two winds -/
example : header ⟨9⟩ [250, -10, 260, 500] (lit "1") 1 2 3 = [lit "Scores: [250, -10, 260, 500]", lit "Parent: 1", lit "Current round: 1",
    lit "Honba: 2", lit "Kyotaku: 3", lit "Remaining rounds: 7", lit "Parent rounds remaining: [1, 2, 2, 2]",
    lit "\n====================\n"] := by
  decide +kernel

end MJ
