import Verif.Model.Printing
import Verif.Spec.Printed
import Verif.Props.Checkpoints
/-!
The printed forms show exactly what they are meant to show.
-/
namespace MJ.Printing
open Spec

/-! ### Texts that can be read back -/

/-- the text does not begin with a digit -/
def Stop (s : Text) : Prop := ∀ c, s.head? = some c → c.isDigit = false

/-- from the beginning of a text, the object printed there and the rest can be read back -/
def Reads {α : Type} (R : α → Text) : Prop := ∀ x y s t, Stop s → Stop t → R x ++ s = R y ++ t → x = y ∧ s = t

theorem stop_nil : Stop [] := fun c h => by cases h

theorem stop_cons {c : Char} {s : Text} (h : c.isDigit = false) : Stop (c :: s) := by
  intro d hd
  cases hd
  exact h

theorem digit_isDigit : ∀ d < 10, (Char.ofNat (48 + d)).isDigit = true := by decide

theorem decimal_isDigit (n : Nat) : ∀ c ∈ decimal n, c.isDigit = true := by
  induction n using Nat.strongRecOn with
  | ind n ih =>
    rw [decimal]
    split
    · next h =>
      intro c hc
      rw [List.mem_singleton.1 hc]
      exact digit_isDigit n h
    · next h =>
      intro c hc
      rcases List.mem_append.1 hc with e | e
      · exact ih _ (by omega) c e
      · rw [List.mem_singleton.1 e]
        exact digit_isDigit _ (by omega)

/-- the value of an ASCII digit -/
def ascii (c : Char) : Nat := c.toNat - 48

theorem ascii_digit : ∀ d < 10, ascii (Char.ofNat (48 + d)) = d := by decide

theorem decimal_value (n : Nat) : digitsValue ((decimal n).map ascii) = n := by
  induction n using Nat.strongRecOn with
  | ind n ih =>
    rw [decimal]
    split
    · next h => simp [digitsValue, ascii_digit n h]
    · next h =>
      rw [List.map_append, List.map_singleton, digitsValue_snoc, ih _ (by omega), ascii_digit _ (by omega)]
      omega

/-- a run of digits ends where the digits end -/
theorem digits_end : ∀ {a b s t : Text}, (∀ c ∈ a, c.isDigit = true) → (∀ c ∈ b, c.isDigit = true) → Stop s → Stop t →
    a ++ s = b ++ t → a = b ∧ s = t := by
  intro a
  induction a with
  | nil =>
    intro b s t _ hb hs _ h
    cases b with
    | nil => exact ⟨rfl, h⟩
    | cons c b =>
      exfalso
      have : s = c :: (b ++ t) := h
      have h1 := hs c (by rw [this]; rfl)
      rw [hb c (by simp)] at h1
      cases h1
  | cons d a ih =>
    intro b s t ha hb hs ht h
    cases b with
    | nil =>
      exfalso
      have : t = d :: (a ++ s) := h.symm
      have h1 := ht d (by rw [this]; rfl)
      rw [ha d (by simp)] at h1
      cases h1
    | cons c b =>
      simp only [List.cons_append, List.cons.injEq] at h
      obtain ⟨e1, e2⟩ := ih (fun c hc => ha c (by simp [hc])) (fun c hc => hb c (by simp [hc])) hs ht h.2
      exact ⟨by rw [h.1, e1], e2⟩

theorem reads_decimal : Reads decimal := by
  intro x y s t hs ht h
  obtain ⟨e1, e2⟩ := digits_end (decimal_isDigit x) (decimal_isDigit y) hs ht h
  refine ⟨?_, e2⟩
  have := congrArg (fun l : Text => digitsValue (l.map ascii)) e1
  simpa only [decimal_value] using this

theorem decimal_head (n : Nat) : ∃ c l, decimal n = c :: l ∧ c.isDigit = true := by
  cases h : decimal n with
  | nil =>
    exfalso
    rw [decimal] at h
    split at h <;> simp at h
  | cons c l => exact ⟨c, l, rfl, decimal_isDigit n c (by rw [h]; simp)⟩

theorem reads_int : Reads int := by
  intro x y s t hs ht h
  cases x with
  | ofNat n =>
    cases y with
    | ofNat m =>
      obtain ⟨e1, e2⟩ := reads_decimal n m s t hs ht h
      exact ⟨by rw [e1], e2⟩
    | negSucc m =>
      exfalso
      obtain ⟨c, l, hc, hd⟩ := decimal_head n
      simp only [int, hc, List.cons_append, List.cons.injEq] at h
      rw [h.1] at hd
      exact absurd hd (by decide)
  | negSucc n =>
    cases y with
    | ofNat m =>
      exfalso
      obtain ⟨c, l, hc, hd⟩ := decimal_head m
      simp only [int, hc, List.cons_append, List.cons.injEq] at h
      rw [← h.1] at hd
      exact absurd hd (by decide)
    | negSucc m =>
      simp only [int, List.cons_append, List.cons.injEq, true_and] at h
      obtain ⟨e1, e2⟩ := reads_decimal _ _ s t hs ht h
      have : n = m := by omega
      exact ⟨by rw [this], e2⟩

theorem reads_bool : Reads bool := by
  intro x y s t _ _ h
  cases x <;> cases y <;> simp [bool, lit] at h ⊢ <;> exact h

/-! ### Lists -/

theorem listRest_stop (xs : List Text) (s : Text) : Stop (listRest xs ++ s) := by
  cases xs with
  | nil => exact stop_cons (by decide)
  | cons x xs => exact stop_cons (by decide)

theorem reads_listRest {α : Type} {R : α → Text} (hr : Reads R) : Reads (fun xs : List α => listRest (xs.map R)) := by
  intro xs
  induction xs with
  | nil =>
    intro ys s t hs ht h
    cases ys with
    | nil => exact ⟨rfl, by simpa [listRest, lit] using h⟩
    | cons y ys => exfalso; simp [listRest, lit] at h
  | cons x xs ih =>
    intro ys s t hs ht h
    cases ys with
    | nil => exfalso; simp [listRest, lit] at h
    | cons y ys =>
      simp only [List.map_cons, listRest, lit, List.append_assoc, List.append_cancel_left_eq] at h
      obtain ⟨e1, e2⟩ := hr x y _ _ (listRest_stop _ _) (listRest_stop _ _) h
      obtain ⟨e3, e4⟩ := ih ys s t hs ht e2
      exact ⟨by rw [e1, e3], e4⟩

/-- lists can be read back if their elements can be and do not begin with a bracket that closes -/
theorem reads_list {α : Type} {R : α → Text} (hr : Reads R) (hb : ∀ x, (R x).head? ≠ some ']' ∧ R x ≠ []) :
    Reads (fun xs : List α => list (xs.map R)) := by
  have no : ∀ x (s t : Text), ']' :: s = R x ++ t → False := by
    intro x s t h
    obtain ⟨h1, h2⟩ := hb x
    cases he : R x with
    | nil => exact h2 he
    | cons c l =>
      rw [he] at h h1
      simp only [List.cons_append, List.cons.injEq] at h
      exact h1 (by rw [h.1]; rfl)
  intro xs ys s t hs ht h
  cases xs with
  | nil =>
    cases ys with
    | nil => exact ⟨rfl, by simpa [list, lit] using h⟩
    | cons y ys =>
      exfalso
      simp only [List.map_nil, List.map_cons, list, lit, List.append_assoc] at h
      have h : '[' :: ']' :: s = '[' :: (R y ++ (listRest (ys.map R) ++ t)) := h
      rw [List.cons.injEq] at h
      exact no y _ _ h.2
  | cons x xs =>
    cases ys with
    | nil =>
      exfalso
      simp only [List.map_nil, List.map_cons, list, lit, List.append_assoc] at h
      have h : '[' :: (R x ++ (listRest (xs.map R) ++ s)) = '[' :: ']' :: t := h
      rw [List.cons.injEq] at h
      exact no x _ _ h.2.symm
    | cons y ys =>
      simp only [List.map_cons, list, lit, List.append_assoc, List.append_cancel_left_eq] at h
      obtain ⟨e1, e2⟩ := hr x y _ _ (listRest_stop _ _) (listRest_stop _ _) h
      obtain ⟨e3, e4⟩ := reads_listRest hr xs ys s t hs ht e2
      exact ⟨by rw [e1, e3], e4⟩

theorem list_head (xs : List Text) : (list xs).head? = some '[' := by
  cases xs <;> rfl

/-! ### Melds, decisions and half-turns -/

/-- the text for what is shown of a meld -/
def meldText : Printed.Meld → Text
  | .chi n => lit "Chi: " ++ int n
  | .pon n => lit "Pon: " ++ int n
  | .kakan n => lit "Kakan: " ++ decimal n
  | .minkan n => lit "Minkan: " ++ int n
  | .ankan n => lit "Ankan: " ++ decimal n
  | .invalid => lit "Invalid naki code"

@[inherit_doc meldText]
def decisionText : Printed.Decision → Text
  | .agari p e => lit "AgariDecision: player=" ++ decimal p ++ lit ", executed=" ++ bool e
  | .reach p e => lit "ReachDecision: player=" ++ decimal p ++ lit ", executed=" ++ bool e
  | .call p m e => lit "NakiDecision: player=" ++ decimal p ++ lit ", naki=" ++ meldText m ++ lit ", executed=" ++ bool e

/-- the text of three lists of decisions -/
def decisionsText (l : List (List Printed.Decision)) : Text := list (l.map (fun d => list (d.map decisionText)))

@[inherit_doc meldText]
def turnText : Printed.Turn → Text
  | .during p l => lit "DuringTurn Object | Player: " ++ decimal p ++ lit " | Decisions: " ++ decisionsText l
  | .discard p t => lit "DiscardTurn Object | Player: " ++ decimal p ++ lit " | Discarded Tile: " ++ decimal t
  | .post p l => lit "PostTurn Object | Player: " ++ decimal p ++ lit " | Decisions: " ++ list (l.map decisionsText)

theorem reads_meld : Reads meldText := by
  intro x y s t hs ht h
  cases x <;> cases y <;>
    simp only [meldText, lit, List.append_assoc, List.append_cancel_left_eq] at h <;>
    first
      | (obtain ⟨e1, e2⟩ := reads_int _ _ s t hs ht h; exact ⟨by rw [e1], e2⟩)
      | (obtain ⟨e1, e2⟩ := reads_decimal _ _ s t hs ht h; exact ⟨by rw [e1], e2⟩)
      | exact ⟨rfl, h⟩
      | (exfalso; simp at h)

theorem comma_stop (a : String) (s : Text) (h : a.toList.head? = some ',' ∨ a.toList.head? = some ' ') : Stop (a.toList ++ s) := by
  cases e : a.toList with
  | nil => rw [e] at h; simp at h
  | cons c l =>
    rw [e] at h
    simp at h
    rcases h with rfl | rfl <;> exact stop_cons (by decide)

theorem reads_decision : Reads decisionText := by
  intro x y s t hs ht h
  cases x <;> cases y <;> simp only [decisionText, lit, List.append_assoc, List.append_cancel_left_eq] at h
  case agari.agari =>
    obtain ⟨e1, e2⟩ := reads_decimal _ _ _ _ (comma_stop _ _ (.inl rfl)) (comma_stop _ _ (.inl rfl)) h
    simp only [List.append_cancel_left_eq] at e2
    obtain ⟨e3, e4⟩ := reads_bool _ _ s t hs ht e2
    exact ⟨by rw [e1, e3], e4⟩
  case reach.reach =>
    obtain ⟨e1, e2⟩ := reads_decimal _ _ _ _ (comma_stop _ _ (.inl rfl)) (comma_stop _ _ (.inl rfl)) h
    simp only [List.append_cancel_left_eq] at e2
    obtain ⟨e3, e4⟩ := reads_bool _ _ s t hs ht e2
    exact ⟨by rw [e1, e3], e4⟩
  case call.call =>
    obtain ⟨e1, e2⟩ := reads_decimal _ _ _ _ (comma_stop _ _ (.inl rfl)) (comma_stop _ _ (.inl rfl)) h
    simp only [List.append_cancel_left_eq] at e2
    obtain ⟨e3, e4⟩ := reads_meld _ _ _ _ (comma_stop _ _ (.inl rfl)) (comma_stop _ _ (.inl rfl)) e2
    simp only [List.append_cancel_left_eq] at e4
    obtain ⟨e5, e6⟩ := reads_bool _ _ s t hs ht e4
    exact ⟨by rw [e1, e3, e5], e6⟩
  all_goals (exfalso; simp at h)

theorem decision_begins (d : Printed.Decision) : (decisionText d).head? ≠ some ']' ∧ decisionText d ≠ [] := by
  cases d <;> simp [decisionText, lit]

theorem list_begins (xs : List Text) : (list xs).head? ≠ some ']' ∧ list xs ≠ [] := by
  cases xs <;> simp [list, lit]

theorem reads_decisions : Reads decisionsText :=
  reads_list (reads_list reads_decision decision_begins) (fun _ => list_begins _)

theorem reads_turn : Reads turnText := by
  intro x y s t hs ht h
  cases x <;> cases y <;> simp only [turnText, lit, List.append_assoc, List.append_cancel_left_eq] at h
  case during.during =>
    obtain ⟨e1, e2⟩ := reads_decimal _ _ _ _ (comma_stop _ _ (.inr rfl)) (comma_stop _ _ (.inr rfl)) h
    simp only [List.append_cancel_left_eq] at e2
    obtain ⟨e3, e4⟩ := reads_decisions _ _ s t hs ht e2
    exact ⟨by rw [e1, e3], e4⟩
  case discard.discard =>
    obtain ⟨e1, e2⟩ := reads_decimal _ _ _ _ (comma_stop _ _ (.inr rfl)) (comma_stop _ _ (.inr rfl)) h
    simp only [List.append_cancel_left_eq] at e2
    obtain ⟨e3, e4⟩ := reads_decimal _ _ s t hs ht e2
    exact ⟨by rw [e1, e3], e4⟩
  case post.post =>
    obtain ⟨e1, e2⟩ := reads_decimal _ _ _ _ (comma_stop _ _ (.inr rfl)) (comma_stop _ _ (.inr rfl)) h
    simp only [List.append_cancel_left_eq] at e2
    obtain ⟨e3, e4⟩ := reads_list reads_decisions (fun _ => list_begins _) _ _ s t hs ht e2
    exact ⟨by rw [e1, e3], e4⟩
  all_goals (exfalso; simp at h)

/-! ### The printed forms -/

open Code in
theorem post_ok {c : Nat} (h : is_chi c = true ∨ is_pon c = true ∨ is_minkan c = true) :
    ∃ i, get_post_turn_filter_idx c = .ok i := by
  unfold get_post_turn_filter_idx
  by_cases h1 : is_chi c = true
  · simp only [h1, if_true]
    split <;> exact ⟨_, rfl⟩
  · by_cases h2 : is_pon c = true
    · simp only [h1, h2, if_true, Bool.false_eq_true, if_false]
      split
      · exact ⟨_, rfl⟩
      · have : ∃ a, (pattern_pon c).acquired = some a := by
          have hlen : ∀ k, 3 ≤ ((List.range 4).filter (fun j => j != k)).length := by
            intro k
            by_cases h : k < 4
            · revert k
              decide
            · have : (List.range 4).filter (fun j => j != k) = List.range 4 :=
                List.filter_eq_self.2 (fun j hj => by have := List.mem_range.1 hj; simp; omega)
              rw [this]
              decide
          unfold pattern_pon
          dsimp only
          refine ⟨_, List.getElem?_eq_getElem ?_⟩
          rw [List.length_map]
          have := hlen ((c &&& 96) >>> 5)
          have := Nat.mod_lt ((c &&& 65024) >>> 9) (show 3 > 0 by decide)
          omega
        obtain ⟨a, ha⟩ := this
        rw [ha]
        dsimp only
        split <;> exact ⟨_, rfl⟩
    · have h3 : is_minkan c = true := h.resolve_left h1 |>.resolve_left h2
      simp only [h1, h2, h3, if_true, Bool.false_eq_true, if_false]
      exact ⟨_, rfl⟩

open Code in
theorem kakan_only {c : Nat} (h : is_kakan c = true) : is_minkan c = false ∧ is_ankan c = false := by
  have hb : (c &&& 0b111100) ≠ 0 := by
    intro e
    have : c &&& 16 = (c &&& 0b111100) &&& 16 := by rw [Nat.and_assoc]; rfl
    rw [e] at this
    unfold is_kakan at h
    rw [this] at h
    simp at h
  have hb : ((c &&& 0b111100) == 0) = false := by simpa using hb
  unfold is_minkan is_ankan
  rw [hb]
  exact ⟨rfl, rfl⟩

open Code in
theorem naki_text (n : Naki) : naki n = .ok (meldText (Printed.meld n)) := by
  unfold naki Printed.meld
  dsimp only
  generalize n.naki_code = c
  by_cases h1 : is_chi c = true
  · obtain ⟨i, hi⟩ := post_ok (.inl h1)
    rw [hi]
    simp only [h1, if_true, meldText]
    rfl
  · by_cases h2 : is_pon c = true
    · obtain ⟨i, hi⟩ := post_ok (.inr (.inl h2))
      rw [hi]
      simp only [h1, h2, if_true, meldText, Bool.false_eq_true, if_false]
      rfl
    · by_cases h3 : is_minkan c = true
      · obtain ⟨i, hi⟩ := post_ok (.inr (.inr h3))
        have h4 : ¬ is_kakan c = true := fun e => by rw [(kakan_only e).1] at h3; cases h3
        rw [hi]
        simp only [h1, h2, h3, h4, if_true, meldText, Bool.false_eq_true, if_false]
        rfl
      · have hp : get_post_turn_filter_idx c = .error .zeroDivision := by
          simp only [get_post_turn_filter_idx, h1, h2, h3, Bool.false_eq_true, if_false]
        by_cases h4 : is_kakan c = true
        · have h5 := (kakan_only h4).2
          simp only [hp, h1, h2, h3, h4, h5, get_during_turn_filter_idx, if_true, meldText, Bool.false_eq_true, if_false]
          rfl
        · by_cases h5 : is_ankan c = true
          · simp only [hp, h1, h2, h3, h4, h5, get_during_turn_filter_idx, if_true, meldText, Bool.false_eq_true, if_false]
            rfl
          · simp only [hp, h1, h2, h3, h4, h5, get_during_turn_filter_idx, meldText, Bool.false_eq_true, if_false]
            rfl

theorem nakiDecision_text (d : NakiDecision) :
    nakiDecision d = .ok (decisionText (.call d.player (Printed.meld d.naki) d.executed)) := by
  unfold nakiDecision
  rw [naki_text]
  rfl

theorem mapM_text {α β : Type} {f : α → Except PyErr β} {g : α → β} (h : ∀ x, f x = .ok (g x)) (l : List α) :
    l.mapM f = .ok (l.map g) := by
  induction l with
  | nil => rfl
  | cons a l ih => rw [List.mapM_cons, h, ih]; rfl

theorem triple_text (agari : List AgariDecision) (reach : List ReachDecision) (calls : List NakiDecision) :
    triple agari reach calls = .ok (decisionsText (Printed.decisions agari reach calls)) := by
  unfold triple
  rw [mapM_text nakiDecision_text]
  show Except.ok _ = _
  unfold decisionsText Printed.decisions
  simp only [List.map_cons, List.map_nil, List.map_map]
  rfl

theorem halfTurn_text (t : HalfTurn) : halfTurn t = .ok (turnText (Printed.turn t)) := by
  cases t with
  | during p o e a r k =>
    unfold halfTurn
    dsimp only
    rw [triple_text]
    rfl
  | discard p o e t => rfl
  | post p o e a k =>
    unfold halfTurn
    dsimp only
    rw [mapM_text (fun p => triple_text (a.getD p []) [] (k.getD p []))]
    show Except.ok _ = _
    unfold Printed.turn turnText
    simp only [List.map_map]
    rfl

end MJ.Printing

namespace MJ
open Printing Spec

/-- C162: printing a meld never raises, and two melds are printed alike iff they are of the same type and have the same
number. -/
theorem C162_melds (m n : Naki) : (∃ t, naki m = .ok t) ∧ (naki m = naki n ↔ Printed.meld m = Printed.meld n) := by
  refine ⟨⟨_, naki_text m⟩, ?_⟩
  rw [naki_text, naki_text]
  constructor
  · intro h
    have h : meldText (Printed.meld m) ++ [] = meldText (Printed.meld n) ++ [] := by
      rw [Except.ok.inj h]
    exact (reads_meld _ _ _ _ stop_nil stop_nil h).1
  · intro h
    rw [h]

/-- C162: printing a half-turn never raises, and two half-turns are printed alike iff they are of the same type, of the
same player, and have the same discarded tile or the same decisions: of each player, in the same order, of the same
type and taken or not, for melds with the same type and number. -/
theorem C162_turns (x y : HalfTurn) :
    (∃ t, halfTurn x = .ok t) ∧ (halfTurn x = halfTurn y ↔ Printed.turn x = Printed.turn y) := by
  refine ⟨⟨_, halfTurn_text x⟩, ?_⟩
  rw [halfTurn_text, halfTurn_text]
  constructor
  · intro h
    have h : turnText (Printed.turn x) ++ [] = turnText (Printed.turn y) ++ [] := by
      rw [Except.ok.inj h]
    exact (reads_turn _ _ _ _ stop_nil stop_nil h).1
  · intro h
    rw [h]

/-- the fields of the game information are bits of the game type below 256 -/
theorem Printing.fields_mod (g : GameInfo) :
    g.against_human = (GameInfo.mk (g.go % 256)).against_human ∧ g.no_red = (GameInfo.mk (g.go % 256)).no_red ∧
    g.kansaki = (GameInfo.mk (g.go % 256)).kansaki ∧ g.tonnan = (GameInfo.mk (g.go % 256)).tonnan ∧
    g.three_players = (GameInfo.mk (g.go % 256)).three_players ∧ g.fast = (GameInfo.mk (g.go % 256)).fast ∧
    g.level = (GameInfo.mk (g.go % 256)).level := by
  have key : ∀ m, 255 &&& m = m → g.go &&& m = (g.go % 256) &&& m := by
    intro m hm
    have : g.go % 256 = g.go &&& 255 := (Nat.and_two_pow_sub_one_eq_mod g.go 8).symm
    rw [this, Nat.and_assoc, hm]
  refine ⟨?_, ?_, ?_, ?_, ?_, ?_, ?_⟩
  · exact key 1 rfl
  · exact congrArg (· >>> 1) (key 2 rfl)
  · exact congrArg (· >>> 2) (key 4 rfl)
  · exact congrArg (· >>> 3) (key 8 rfl)
  · exact congrArg (· >>> 4) (key 16 rfl)
  · exact congrArg (· >>> 6) (key 64 rfl)
  · exact congrArg (· >>> 5) (key 0xA0 rfl)

theorem Printing.fields_value : ∀ a < 256, a = (GameInfo.mk a).against_human + 2 * (GameInfo.mk a).no_red +
    4 * (GameInfo.mk a).kansaki + 8 * (GameInfo.mk a).tonnan + 16 * (GameInfo.mk a).three_players +
    64 * (GameInfo.mk a).fast + 32 * (GameInfo.mk a).level := by decide +kernel

theorem Printing.game_reads {g g' : GameInfo} {s t : Text} (hs : Stop s) (ht : Stop t)
    (h : gameInfo g ++ s = gameInfo g' ++ t) : g.go % 256 = g'.go % 256 ∧ s = t := by
  simp only [gameInfo, lit, List.append_assoc, List.append_cancel_left_eq] at h
  obtain ⟨e1, h⟩ := reads_decimal _ _ _ _ (comma_stop _ _ (.inl rfl)) (comma_stop _ _ (.inl rfl)) h
  simp only [List.append_cancel_left_eq] at h
  obtain ⟨e2, h⟩ := reads_decimal _ _ _ _ (comma_stop _ _ (.inl rfl)) (comma_stop _ _ (.inl rfl)) h
  simp only [List.append_cancel_left_eq] at h
  obtain ⟨e3, h⟩ := reads_decimal _ _ _ _ (comma_stop _ _ (.inl rfl)) (comma_stop _ _ (.inl rfl)) h
  simp only [List.append_cancel_left_eq] at h
  obtain ⟨e4, h⟩ := reads_decimal _ _ _ _ (comma_stop _ _ (.inl rfl)) (comma_stop _ _ (.inl rfl)) h
  simp only [List.append_cancel_left_eq] at h
  obtain ⟨e5, h⟩ := reads_decimal _ _ _ _ (comma_stop _ _ (.inl rfl)) (comma_stop _ _ (.inl rfl)) h
  simp only [List.append_cancel_left_eq] at h
  obtain ⟨e6, h⟩ := reads_decimal _ _ _ _ (comma_stop _ _ (.inl rfl)) (comma_stop _ _ (.inl rfl)) h
  simp only [List.append_cancel_left_eq] at h
  obtain ⟨e7, h⟩ := reads_decimal _ _ _ _ hs ht h
  refine ⟨?_, h⟩
  obtain ⟨a1, a2, a3, a4, a5, a6, a7⟩ := fields_mod g
  obtain ⟨b1, b2, b3, b4, b5, b6, b7⟩ := fields_mod g'
  rw [fields_value (g.go % 256) (Nat.mod_lt _ (by decide)), fields_value (g'.go % 256) (Nat.mod_lt _ (by decide)),
    ← a1, ← a2, ← a3, ← a4, ← a5, ← a6, ← a7, ← b1, ← b2, ← b3, ← b4, ← b5, ← b6, ← b7, e1, e2, e3, e4, e5, e6, e7]

/-- C162: the printed game information shows the last eight bits of the game type, no more and no less. -/
theorem C162_game (g g' : GameInfo) : gameInfo g = gameInfo g' ↔ g.go % 256 = g'.go % 256 := by
  constructor
  · intro h
    exact (game_reads stop_nil stop_nil (by rw [h])).1
  · intro h
    obtain ⟨a1, a2, a3, a4, a5, a6, a7⟩ := fields_mod g
    obtain ⟨b1, b2, b3, b4, b5, b6, b7⟩ := fields_mod g'
    unfold gameInfo
    rw [a1, a2, a3, a4, a5, a6, a7, b1, b2, b3, b4, b5, b6, b7, h]

/-- C162: the printed round information shows, besides, the number of the round. -/
theorem C162_round (g g' : GameInfo) (r r' : Nat) :
    roundInfo g r = roundInfo g' r' ↔ g.go % 256 = g'.go % 256 ∧ r = r' := by
  have ton : g.go % 256 = g'.go % 256 → g.tonnan = g'.tonnan := by
    intro e
    rw [(fields_mod g).2.2.2.1, (fields_mod g').2.2.2.1, e]
  constructor
  · intro h
    simp only [roundInfo, lit, List.append_assoc, List.append_cancel_left_eq] at h
    obtain ⟨e1, h⟩ := game_reads (comma_stop _ _ (.inl rfl)) (comma_stop _ _ (.inl rfl)) h
    simp only [List.append_cancel_left_eq] at h
    obtain ⟨e2, -⟩ := reads_int _ _ _ _ (comma_stop _ _ (.inl rfl)) (comma_stop _ _ (.inl rfl)) h
    refine ⟨e1, ?_⟩
    have := ton e1
    unfold RoundInfo.init at e2
    dsimp only at e2
    omega
  · rintro ⟨h, rfl⟩
    unfold roundInfo RoundInfo.init
    dsimp only
    rw [(C162_game g g').2 h, ton h]

/-- C162: the printed result of a round shows whether it was won and the numbers of the log. -/
theorem C162_results (a b : Bool) (sc sc' : List Int) : result a sc = result b sc' ↔ a = b ∧ sc = sc' := by
  have hb : ∀ i : Int, (int i).head? ≠ some ']' ∧ int i ≠ [] := by
    intro i
    cases i with
    | ofNat n =>
      obtain ⟨c, l, hc, hd⟩ := decimal_head n
      simp only [int, hc]
      refine ⟨fun e => ?_, by simp⟩
      cases e
      exact absurd hd (by decide)
    | negSucc n => simp [int]
  constructor
  · intro h
    cases a <;> cases b <;> simp only [result, lit, if_true, if_false, Bool.false_eq_true, List.append_cancel_left_eq] at h
    · exact ⟨rfl, (reads_list reads_int hb sc sc' [] [] stop_nil stop_nil (by simpa using h)).1⟩
    · simp at h
    · simp at h
    · exact ⟨rfl, (reads_list reads_int hb sc sc' [] [] stop_nil stop_nil (by simpa using h)).1⟩
  · rintro ⟨rfl, rfl⟩
    rfl

end MJ
