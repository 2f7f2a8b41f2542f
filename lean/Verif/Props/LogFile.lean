import Verif.Spec.LogFile
import Verif.Props.Xml
import Std.Data.String.ToInt
/-!
C102: a log written in the documented format is read as the rounds that were played.
-/
namespace MJ
open Spec

/-! ### numbers and commas -/

theorem digits_nat (n : Nat) : ∀ c ∈ (toString n).toList, c.isDigit = true := by
  intro c hc
  have : (toString n).toList = Nat.toDigits 10 n := by
    show (Nat.repr n).toList = _
    simp [Nat.repr]
  rw [this] at hc
  exact Nat.isDigit_of_mem_toDigits (b := 10) (by decide) (by decide) hc

theorem no_comma_nat (n : Nat) : ',' ∉ (toString n).toList :=
  fun h => absurd (digits_nat n _ h) (by decide)

theorem toString_int_nat (n : Nat) : toString (n : Int) = toString n := rfl

theorem no_comma_int (n : Int) : ',' ∉ (toString n).toList := by
  cases n with
  | ofNat n => exact no_comma_nat n
  | negSucc n =>
    have : (toString (Int.negSucc n)).toList = '-' :: (toString (n + 1)).toList := by
      show ("-" ++ Nat.repr (n + 1)).toList = _
      rw [String.toList_append]
      rfl
    rw [this]
    simp only [List.mem_cons, not_or]
    exact ⟨by decide, no_comma_nat _⟩

theorem splitChars_single (sep : Char) (l : List Char) (h : sep ∉ l) : splitChars sep l = [l] := by
  induction l with
  | nil => rfl
  | cons c cs ih =>
    simp only [List.mem_cons, not_or] at h
    rw [splitChars, if_neg (fun e => h.1 e.symm), ih h.2]

theorem splitChars_append (sep : Char) (l rest : List Char) (h : sep ∉ l) :
    splitChars sep (l ++ sep :: rest) = l :: splitChars sep rest := by
  induction l with
  | nil => simp [splitChars]
  | cons c cs ih =>
    simp only [List.mem_cons, not_or] at h
    rw [List.cons_append, splitChars, if_neg (fun e => h.1 e.symm), ih h.2]

theorem splitChars_intercalate (ls : List (List Char)) (hne : ls ≠ []) (h : ∀ l ∈ ls, ',' ∉ l) :
    splitChars ',' (List.intercalate [','] ls) = ls := by
  induction ls with
  | nil => exact absurd rfl hne
  | cons l ls ih =>
    cases ls with
    | nil => simpa using splitChars_single ',' l (h l (by simp))
    | cons l' ls =>
      rw [List.intercalate_cons_cons, List.append_assoc, List.singleton_append,
        splitChars_append _ _ _ (h l (by simp)),
        ih (by simp) (fun x hx => h x (List.mem_cons_of_mem _ hx))]

theorem splitComma_commas (l : List String) (hne : l ≠ []) (h : ∀ x ∈ l, ',' ∉ x.toList) :
    splitComma (commas l) = l := by
  unfold splitComma commas
  rw [String.toList_ofList, splitChars_intercalate _ (by simpa using hne) (by simpa using h), List.map_map]
  conv => rhs; rw [← List.map_id l]
  apply List.map_congr_left
  intro x _
  simp

theorem mapM_ok_map {α β : Type} (f : α → Except PyErr β) (g : α → β) (l : List α) (h : ∀ x ∈ l, f x = .ok (g x)) :
    l.mapM f = .ok (l.map g) := by
  induction l with
  | nil => rfl
  | cons x xs ih =>
    rw [List.mapM_cons, h x (by simp), ih (fun y hy => h y (List.mem_cons_of_mem _ hy))]
    rfl

theorem parseNat_toString {pi : PyInt} (hpi : ReadsDecimals pi) (n : Nat) : parseNat pi (toString n) = .ok n := by
  have := hpi (n : Int)
  rw [toString_int_nat] at this
  unfold parseNat
  rw [this]
  simp

theorem mapM_map_ok {α β : Type} (f : String → Except PyErr β) (w : α → String) (g : α → β) (l : List α)
    (h : ∀ x, f (w x) = .ok (g x)) : (l.map w).mapM f = .ok (l.map g) := by
  induction l with
  | nil => rfl
  | cons x xs ih =>
    rw [List.map_cons, List.mapM_cons, h x, ih]
    rfl

theorem parseNats_commas {pi : PyInt} (hpi : ReadsDecimals pi) (l : List Nat) (hne : l ≠ []) :
    parseNats pi (commas (l.map toString)) = .ok l := by
  unfold parseNats
  rw [splitComma_commas _ (by simpa using hne) (by
    intro x hx
    obtain ⟨n, _, rfl⟩ := List.mem_map.1 hx
    exact no_comma_nat n), mapM_map_ok _ toString id l (parseNat_toString hpi), List.map_id]

theorem parseInts_commas {pi : PyInt} (hpi : ReadsDecimals pi) (l : List Int) (hne : l ≠ []) :
    parseInts pi (commas (l.map toString)) = .ok l := by
  unfold parseInts
  rw [splitComma_commas _ (by simpa using hne) (by
    intro x hx
    obtain ⟨n, _, rfl⟩ := List.mem_map.1 hx
    exact no_comma_int n), mapM_map_ok _ toString id l (by
    intro n
    unfold parseInt
    rw [hpi n]
    rfl), List.map_id]

/-! ### events -/

theorem nat_has {pi : PyInt} (hpi : ReadsDecimals pi) {i : Item} {key : String} {n : Nat} (h : Has i key (toString n)) :
    i.nat pi key = .ok n := by
  unfold Item.nat Item.get
  rw [show i.attrib.lookup key = _ from h]
  exact parseNat_toString hpi n

theorem get_has {i : Item} {key v : String} (h : Has i key v) : i.get key = .ok v := by
  simp [Item.get, show i.attrib.lookup key = _ from h]

theorem ofList_ne {c : Char} {n : Nat} {s : String} (h : ∀ d ∈ s.toList.tail.head?, d.isDigit = false)
    (h1 : 2 ≤ s.toList.length) : String.ofList (c :: (toString n).toList) ≠ s := by
  intro e
  have e' : c :: (toString n).toList = s.toList := by rw [← e]; simp
  have hd := digits_nat n
  rw [← e'] at h h1
  cases hl : (toString n).toList with
  | nil => rw [hl] at h1; simp at h1
  | cons d ds =>
    rw [hl] at h hd
    have a := h d (by simp)
    have b := hd d (by simp)
    rw [a] at b
    cases b

theorem ofList_ne_N {c : Char} {l : List Char} (h : c ≠ 'N') : String.ofList (c :: l) ≠ "N" := by
  intro e
  have e' := congrArg String.toList e
  rw [String.toList_ofList] at e'
  exact h (List.cons.inj e').1

/-- C102: an element written for an event is read as that event, with its player, tile and code. -/
theorem C102_event {pi : PyInt} (hpi : ReadsDecimals pi) (i : Item) (a : Act) (h : Writes i a) : toEv pi i = a.ev := by
  cases a with
  | dora t =>
    unfold toEv
    rw [h.1, nat_has hpi h.2]
    rfl
  | declare p =>
    unfold toEv
    rw [h.1, nat_has hpi h.2.1, get_has h.2.2]
    rfl
  | accept p =>
    unfold toEv
    rw [h.1, nat_has hpi h.2.1, get_has h.2.2]
    rfl
  | call p c =>
    unfold toEv
    rw [h.1, nat_has hpi h.2.1, nat_has hpi h.2.2]
    rfl
  | draw p t =>
    obtain ⟨hp, ht⟩ := h
    have n1 : i.tag ≠ "DORA" := by rw [ht]; exact ofList_ne (by decide +kernel) (by decide +kernel)
    have n2 : i.tag ≠ "REACH" := by rw [ht]; exact ofList_ne (by decide +kernel) (by decide +kernel)
    have n3 : i.tag ≠ "N" := by
      rw [ht]
      refine ofList_ne_N ?_
      rcases (show p = 0 ∨ p = 1 ∨ p = 2 ∨ p = 3 by omega) with rfl | rfl | rfl | rfl <;> decide
    have e1 : seatOf ['T', 'U', 'V', 'W'] (drawLetter p) = some ⟨p, hp⟩ := by
      rcases (show p = 0 ∨ p = 1 ∨ p = 2 ∨ p = 3 by omega) with rfl | rfl | rfl | rfl <;> rfl
    unfold toEv
    rw [if_neg n1, if_neg n2, if_neg n3, ht, String.toList_ofList]
    simp only [e1]
    rw [String.ofList_toList, parseNat_toString hpi, Act.ev, dif_pos hp]
  | discard p t =>
    obtain ⟨hp, ht⟩ := h
    have n1 : i.tag ≠ "DORA" := by rw [ht]; exact ofList_ne (by decide +kernel) (by decide +kernel)
    have n2 : i.tag ≠ "REACH" := by rw [ht]; exact ofList_ne (by decide +kernel) (by decide +kernel)
    have n3 : i.tag ≠ "N" := by
      rw [ht]
      refine ofList_ne_N ?_
      rcases (show p = 0 ∨ p = 1 ∨ p = 2 ∨ p = 3 by omega) with rfl | rfl | rfl | rfl <;> decide
    have e0 : seatOf ['T', 'U', 'V', 'W'] (discardLetter p) = none := by
      rcases (show p = 0 ∨ p = 1 ∨ p = 2 ∨ p = 3 by omega) with rfl | rfl | rfl | rfl <;> rfl
    have e1 : seatOf ['D', 'E', 'F', 'G'] (discardLetter p) = some ⟨p, hp⟩ := by
      rcases (show p = 0 ∨ p = 1 ∨ p = 2 ∨ p = 3 by omega) with rfl | rfl | rfl | rfl <;> rfl
    unfold toEv
    rw [if_neg n1, if_neg n2, if_neg n3, ht, String.toList_ofList]
    simp only [e0, e1]
    rw [String.ofList_toList, parseNat_toString hpi, Act.ev, dif_pos hp]

theorem result_read {pi : PyInt} (hpi : ReadsDecimals pi) (i : Item) (r : Bool × List Int) (h : WritesResult i r) :
    toEv pi i = .result r.1 (.ok r.2) := by
  obtain ⟨b, l⟩ := r
  obtain ⟨h1, h2, h3⟩ := h
  cases b
  · simp only [Bool.false_eq_true, if_false] at h1
    unfold toEv
    rw [h1, get_has h2]
    simp [seatOf, parseInts_commas hpi l h3]
  · simp only [if_true] at h1
    unfold toEv
    rw [h1, get_has h2]
    simp [seatOf, parseInts_commas hpi l h3]

/-- C102: and no other element is read as a draw or discard of a player: the tag is the player's letter and the rest of
it reads as the tile. -/
theorem C102_only {pi : PyInt} (i : Item) (p : Fin 4) (t : Nat) :
    (toEv pi i = .draw p (.ok t) → ∃ rest, i.tag = String.ofList (drawLetter p :: rest) ∧ pi (String.ofList rest) = some (t : Int)) ∧
    (toEv pi i = .discard p (.ok t) →
      ∃ rest, i.tag = String.ofList (discardLetter p :: rest) ∧ pi (String.ofList rest) = some (t : Int)) := by
  have hpn : ∀ s, parseNat pi s = .ok t → pi s = some (t : Int) := by
    intro s hs
    unfold parseNat at hs
    cases hp : pi s with
    | none => simp [hp] at hs
    | some n =>
      simp only [hp] at hs
      split at hs
      · cases hs; congr 1; omega
      · cases hs
  have hseat1 : ∀ c (q : Fin 4), seatOf ['T', 'U', 'V', 'W'] c = some q → c = drawLetter q := by
    intro c q hq
    unfold seatOf at hq
    repeat' split at hq
    all_goals first | (cases hq; assumption) | cases hq
  have hseat2 : ∀ c (q : Fin 4), seatOf ['D', 'E', 'F', 'G'] c = some q → c = discardLetter q := by
    intro c q hq
    unfold seatOf at hq
    repeat' split at hq
    all_goals first | (cases hq; assumption) | cases hq
  constructor
  · intro h
    unfold toEv at h
    repeat' split at h
    all_goals try contradiction
    rename_i rest htag _ q hq
    simp only [Ev.draw.injEq] at h
    obtain ⟨rfl, h⟩ := h
    refine ⟨rest, ?_, hpn _ h⟩
    rw [← hseat1 _ _ hq, ← htag, String.ofList_toList]
  · intro h
    unfold toEv at h
    repeat' split at h
    all_goals try contradiction
    rename_i rest htag _ _ _ q hq
    simp only [Ev.discard.injEq] at h
    obtain ⟨rfl, h⟩ := h
    refine ⟨rest, ?_, hpn _ h⟩
    rw [← hseat2 _ _ hq, ← htag, String.ofList_toList]

/-! ### rounds -/

theorem initRound_congr (est : Estimate) (sh : List Int → Except PyErr Int) (g : GameInfo) (a b : InitAttr)
    (h1 : a.ten = b.ten) (h2 : a.oya = b.oya) (h3 : a.seed = b.seed) (h4 : ∀ p < 4, a.hai p = b.hai p) :
    initRound est sh g a = initRound est sh g b := by
  unfold initRound
  rw [h1, h2, h3, h4 0 (by omega), h4 1 (by omega), h4 2 (by omega), h4 3 (by omega)]

theorem init_read {pi : PyInt} (hpi : ReadsDecimals pi) (est : Estimate) (sh : List Int → Except PyErr Int) (g : GameInfo)
    (i : Item) (r : LogRound) (h : WritesInit i r) : initRound est sh g (toInit pi i) = initRound est sh g r.attr := by
  obtain ⟨_, h1, h2, h3, h4, h5, h6⟩ := h
  apply initRound_congr
  · simp [toInit, LogRound.attr, get_has h1, parseInts_commas hpi _ h2]
  · simp [toInit, LogRound.attr, nat_has hpi h3]
  · simp [toInit, LogRound.attr, get_has h4, parseNats_commas hpi _ h5]
  · intro p hp
    obtain ⟨h7, h8⟩ := h6 p hp
    have e : (if p = 0 then "hai0" else if p = 1 then "hai1" else if p = 2 then "hai2" else "hai3") = "hai" ++ toString p := by
      have : p = 0 ∨ p = 1 ∨ p = 2 ∨ p = 3 := by omega
      rcases this with rfl | rfl | rfl | rfl <;> decide
    simp only [toInit, LogRound.attr, e, get_has h7, parseNats_commas hpi _ h8]

theorem allPairs_map {α β γ : Type} {R : α → β → Prop} {as : List α} {bs : List β} (h : AllPairs R as bs)
    (f : α → γ) (k : β → γ) (hf : ∀ a b, R a b → f a = k b) : as.map f = bs.map k := by
  induction h with
  | nil => rfl
  | cons h _ ih => simp [hf _ _ h, ih]

/-- C102: a written round is processed as the round that was played. -/
theorem C102_round {pi : PyInt} (hpi : ReadsDecimals pi) (est : Estimate) (sh : List Int → Except PyErr Int) (g : GameInfo)
    (is : List Item) (r : LogRound) (h : WritesRound is r) :
    runRound pi est sh g is = processRound est sh g r.attr r.events := by
  obtain ⟨i, evs, res, rfl, hi, he, hr⟩ := h
  have htag := hi.1
  have hmap : (evs ++ res).map (toEv pi) = r.events := by
    rw [List.map_append, LogRound.events, allPairs_map he (toEv pi) Act.ev (C102_event hpi),
      allPairs_map hr (toEv pi) (fun x => .result x.1 (.ok x.2)) (result_read hpi)]
  simp only [runRound, htag, if_true, hmap, processRound, init_read hpi est sh g i r hi]

theorem writes_tag {i : Item} {a : Act} (h : Writes i a) : i.tag ≠ "INIT" ∧ i.tag ≠ "BYE" ∧ i.tag ∉ bookkeeping := by
  have key : ∀ (c : Char) (t : Nat), (c = 'T' ∨ c = 'U' ∨ c = 'V' ∨ c = 'W' ∨ c = 'D' ∨ c = 'E' ∨ c = 'F' ∨ c = 'G') →
      i.tag = String.ofList (c :: (toString t).toList) → i.tag ≠ "INIT" ∧ i.tag ≠ "BYE" ∧ i.tag ∉ bookkeeping := by
    intro c t _ e
    rw [e]
    refine ⟨ofList_ne (by decide) (by decide), ofList_ne (by decide) (by decide), ?_⟩
    simp only [bookkeeping, List.mem_cons, List.not_mem_nil, or_false, not_or]
    exact ⟨ofList_ne (by decide) (by decide), ofList_ne (by decide) (by decide), ofList_ne (by decide) (by decide),
      ofList_ne (by decide) (by decide), ofList_ne (by decide) (by decide)⟩
  cases a with
  | dora t => rw [h.1]; decide
  | declare p => rw [h.1]; decide
  | accept p => rw [h.1]; decide
  | call p c => rw [h.1]; decide
  | draw p t =>
    obtain ⟨hp, ht⟩ := h
    refine key _ _ ?_ ht
    have : p = 0 ∨ p = 1 ∨ p = 2 ∨ p = 3 := by omega
    rcases this with rfl | rfl | rfl | rfl <;> decide
  | discard p t =>
    obtain ⟨hp, ht⟩ := h
    refine key _ _ ?_ ht
    have : p = 0 ∨ p = 1 ∨ p = 2 ∨ p = 3 := by omega
    rcases this with rfl | rfl | rfl | rfl <;> decide

theorem writesResult_tag {i : Item} {r : Bool × List Int} (h : WritesResult i r) :
    i.tag ≠ "INIT" ∧ i.tag ≠ "BYE" ∧ i.tag ∉ bookkeeping := by
  rw [h.1]
  cases r.1 <;> decide

theorem allPairs_mem {α β : Type} {R : α → β → Prop} {as : List α} {bs : List β} (h : AllPairs R as bs) :
    ∀ a ∈ as, ∃ b ∈ bs, R a b := by
  induction h with
  | nil => simp
  | cons h _ ih =>
    intro a ha
    rcases List.mem_cons.1 ha with rfl | ha
    · exact ⟨_, by simp, h⟩
    · obtain ⟨b, hb, hr⟩ := ih a ha
      exact ⟨b, List.mem_cons_of_mem _ hb, hr⟩

theorem writesRound_isRound {is : List Item} {r : LogRound} (h : WritesRound is r) :
    IsRound is ∧ ∀ i ∈ is, i.tag ≠ "BYE" := by
  obtain ⟨i, evs, res, rfl, hi, he, hr⟩ := h
  have hrest : ∀ x ∈ evs ++ res, x.tag ≠ "INIT" ∧ x.tag ≠ "BYE" := by
    intro x hx
    rcases List.mem_append.1 hx with hx | hx
    · obtain ⟨a, _, ha⟩ := allPairs_mem he x hx
      exact ⟨(writes_tag ha).1, (writes_tag ha).2.1⟩
    · obtain ⟨a, _, ha⟩ := allPairs_mem hr x hx
      exact ⟨(writesResult_tag ha).1, (writesResult_tag ha).2.1⟩
  refine ⟨⟨i, evs ++ res, rfl, hi.1, fun x hx => (hrest x hx).1⟩, ?_⟩
  intro x hx
  rcases List.mem_cons.1 hx with rfl | hx
  · rw [hi.1]; decide
  · exact (hrest x hx).2

theorem init_prefix (a b u v : List Item) (ha : ∀ e ∈ a, e.tag ≠ "INIT") (hb : ∀ e ∈ b, e.tag ≠ "INIT")
    (hu : u = [] ∨ ∃ e l, u = e :: l ∧ e.tag = "INIT") (hv : v = [] ∨ ∃ e l, v = e :: l ∧ e.tag = "INIT")
    (h : a ++ u = b ++ v) : a = b ∧ u = v := by
  induction a generalizing b with
  | nil =>
    cases b with
    | nil => exact ⟨rfl, by simpa using h⟩
    | cons y b =>
      rcases hu with rfl | ⟨e, l, rfl, he⟩
      · simp at h
      · simp only [List.nil_append, List.cons_append, List.cons.injEq] at h
        exact absurd (h.1 ▸ he) (hb y (by simp))
  | cons x a ih =>
    cases b with
    | nil =>
      rcases hv with rfl | ⟨e, l, rfl, he⟩
      · simp at h
      · simp only [List.nil_append, List.cons_append, List.cons.injEq] at h
        exact absurd (h.1 ▸ he) (ha x (by simp))
    | cons y b =>
      simp only [List.cons_append, List.cons.injEq] at h
      obtain ⟨e1, e2⟩ := ih b (fun e he => ha e (List.mem_cons_of_mem _ he)) (fun e he => hb e (List.mem_cons_of_mem _ he)) h.2
      exact ⟨by rw [h.1, e1], e2⟩

/-- there is only one way to cut a stream into rounds -/
theorem rounds_unique (as bs : List (List Item)) (ha : ∀ r ∈ as, IsRound r) (hb : ∀ r ∈ bs, IsRound r)
    (h : as.flatten = bs.flatten) : as = bs := by
  have start : ∀ l : List (List Item), (∀ r ∈ l, IsRound r) → l.flatten = [] ∨ ∃ e k, l.flatten = e :: k ∧ e.tag = "INIT" := by
    intro l hl
    cases l with
    | nil => left; rfl
    | cons r l =>
      obtain ⟨i, rest, rfl, hi, _⟩ := hl r (by simp)
      right
      exact ⟨i, rest ++ l.flatten, by simp, hi⟩
  induction as generalizing bs with
  | nil =>
    cases bs with
    | nil => rfl
    | cons b bs =>
      obtain ⟨i, rest, rfl, _, _⟩ := hb b (by simp)
      simp at h
  | cons a as ih =>
    obtain ⟨i, rest, rfl, hi, hr⟩ := ha a (by simp)
    cases bs with
    | nil => simp at h
    | cons b bs =>
      obtain ⟨j, rest', rfl, hj, hr'⟩ := hb b (by simp)
      simp only [List.flatten_cons, List.cons_append, List.cons.injEq] at h
      have ha' : ∀ r ∈ as, IsRound r := fun r hr => ha r (List.mem_cons_of_mem _ hr)
      have hb' : ∀ r ∈ bs, IsRound r := fun r hr => hb r (List.mem_cons_of_mem _ hr)
      obtain ⟨e1, e2⟩ := init_prefix _ _ _ _ hr hr' (start as ha') (start bs hb') h.2
      rw [h.1, e1, ih bs ha' hb' e2]

theorem allPairs_mapM {α β γ : Type} {R : α → β → Prop} {as : List α} {bs : List β} (h : AllPairs R as bs)
    (f : α → Except PyErr γ) (k : β → Except PyErr γ) (hf : ∀ a b, R a b → f a = k b) : as.mapM f = bs.mapM k := by
  induction h with
  | nil => rfl
  | cons h _ ih => rw [List.mapM_cons, List.mapM_cons, hf _ _ h, ih]

/-- C102: A document whose events, bookkeeping apart, are the written rounds of a standard game is processed as exactly
these rounds, one after the other. -/
theorem C102_log {pi : PyInt} (hpi : ReadsDecimals pi) (est : Estimate) (sh : List Int → Except PyErr Int) (root : Elem)
    (go : Nat) (rs : List LogRound) (iss : List (List Item)) (hgo : HasGameType pi root go) (hacc : Acceptable ⟨go⟩)
    (hw : AllPairs WritesRound iss rs) (hroot : relevant (traverse root) = iss.flatten) :
    process pi est sh root = rs.mapM (fun r => processRound est sh ⟨go⟩ r.attr r.events) := by
  have hiss : ∀ is ∈ iss, IsRound is ∧ ∀ i ∈ is, i.tag ≠ "BYE" := by
    intro is his
    obtain ⟨r, _, hr⟩ := allPairs_mem hw is his
    exact writesRound_isRound hr
  have hnobye : ∀ i ∈ iss.flatten, i.tag ≠ "BYE" := by
    intro i hi
    obtain ⟨is, h1, h2⟩ := List.mem_flatten.1 hi
    exact (hiss is h1).2 i h2
  have hfine : grouping (traverse root) = .fine := by
    unfold grouping
    rw [hroot]
    cases hf : iss.flatten with
    | nil => rfl
    | cons e es =>
      have he : e.tag = "INIT" := by
        cases iss with
        | nil => simp at hf
        | cons is iss =>
          obtain ⟨i, rest, rfl, hi, _⟩ := (hiss is (by simp)).1
          simp only [List.flatten_cons, List.cons_append, List.cons.injEq] at hf
          rw [← hf.1]; exact hi
      have hb : "BYE" ∉ (e :: es).map (·.tag) := by
        intro hm
        obtain ⟨x, hx, hx2⟩ := List.mem_map.1 hm
        rw [← hf] at hx
        exact hnobye x hx hx2
      simp only []
      rw [if_neg (fun h => h.1 he), if_neg hb]
  have hg := (C29_rejections pi root).2 go hgo
  rw [hfine] at hg
  obtain ⟨rounds, hrounds⟩ := hg
  have hpart := C28_rounds_partition pi root _ rounds hrounds
  have : rounds = iss := rounds_unique _ _ hpart.2 (fun r hr => (hiss r hr).1) (hpart.1.trans hroot)
  subst this
  rw [(C30_only_standard_games pi est sh root _ rounds hrounds).2 hacc]
  exact allPairs_mapM hw _ _ (fun is r h => C102_round hpi est sh _ is r h)

/-! ### the hypotheses hold of a small log -/

/-- there is an `int` that reads all decimal numbers -/
theorem readsDecimals_toInt : ReadsDecimals String.toInt? := Int.toInt?_repr

def smallRound : LogRound :=
  { hai := fun p => [p, 136 - p], ten := [250, 250, 250, 250], dealer := 0, seed := [0, 0, 0, 1, 2, 100]
    acts := [.draw 0 5, .discard 0 5, .draw 1 133, .declare 1, .discard 1 133, .accept 1, .call 2 5127, .dora 77]
    results := [(true, [250, 10, -10])] }

def smallItems : List Item :=
  [⟨"INIT", [("seed", "0,0,0,1,2,100"), ("ten", "250,250,250,250"), ("oya", "0"), ("hai0", "0,136"), ("hai1", "1,135"),
      ("hai2", "2,134"), ("hai3", "3,133")]⟩,
    ⟨"T5", []⟩, ⟨"D5", []⟩, ⟨"U133", []⟩, ⟨"REACH", [("who", "1"), ("step", "1")]⟩, ⟨"E133", []⟩,
    ⟨"REACH", [("who", "1"), ("ten", "250,240,250,250"), ("step", "2")]⟩, ⟨"N", [("who", "2"), ("m", "5127")]⟩,
    ⟨"DORA", [("hai", "77")]⟩, ⟨"AGARI", [("who", "2"), ("sc", "250,10,-10")]⟩]

example : WritesRound smallItems smallRound := by
  refine ⟨_, smallItems.tail.dropLast, [⟨"AGARI", [("who", "2"), ("sc", "250,10,-10")]⟩], rfl, ?_, ?_, ?_⟩
  · refine ⟨rfl, by unfold Has; decide +kernel, by decide +kernel, by unfold Has; decide +kernel, by unfold Has; decide +kernel,
      by decide +kernel, ?_⟩
    intro p hp
    rcases (show p = 0 ∨ p = 1 ∨ p = 2 ∨ p = 3 by omega) with rfl | rfl | rfl | rfl <;>
      exact ⟨by unfold Has; decide +kernel, by decide +kernel⟩
  · refine .cons ⟨by decide +kernel, by decide +kernel⟩ <| .cons ⟨by decide +kernel, by decide +kernel⟩ <|
      .cons ⟨by decide +kernel, by decide +kernel⟩ <| .cons ⟨rfl, by unfold Has; decide +kernel, rfl⟩ <|
      .cons ⟨by decide +kernel, by decide +kernel⟩ <| .cons ⟨rfl, by unfold Has; decide +kernel, rfl⟩ <|
      .cons ⟨rfl, by unfold Has; decide +kernel, by unfold Has; decide +kernel⟩ <|
      .cons ⟨rfl, by unfold Has; decide +kernel⟩ .nil
  · exact .cons ⟨rfl, by unfold Has; decide +kernel, by decide +kernel⟩ .nil

end MJ
