import Verif.Model.PyInt
import Verif.Props.LogFile
import Mathlib.Data.List.Chain
import Mathlib.Data.List.TakeWhile
/-!
C168: numbers are read as they are written.
-/
namespace MJ
open Spec

/-- digits with single underscores between them -/
structure Spec.DigitText (val : Char → Option Nat) (body : List Char) : Prop where
  first : ∃ c d, body.head? = some c ∧ val c = some d
  last : ∃ c d, body.getLast? = some c ∧ val c = some d
  chars : ∀ c ∈ body, (val c).isSome ∨ c = '_'
  single : List.IsChain (fun a b => ¬ (a = '_' ∧ b = '_')) body

/-- a text that stands for a number: white space, a sign, digits, white space -/
def Spec.Numeral (val : Char → Option Nat) (blank : Char → Bool) (text : List Char) (k : Int) : Prop :=
  ∃ pre sign body post, text = pre ++ sign ++ body ++ post ∧ (∀ c ∈ pre, blank c = true) ∧ (∀ c ∈ post, blank c = true) ∧
    (sign = [] ∨ sign = ['+'] ∨ sign = ['-']) ∧ DigitText val body ∧
    k = (if sign = ['-'] then -1 else 1) * (digitsValue (body.filterMap val) : Int)

variable {val : Char → Option Nat}

/-- what may follow the part that was read: `under` if an underscore came before it -/
def bodyOk (val : Char → Option Nat) : Bool → List Char → Prop
  | under, [] => under = false
  | under, c :: cs => ((val c).isSome ∧ bodyOk val false cs) ∨ ((val c) = none ∧ c = '_' ∧ under = false ∧ bodyOk val true cs)

theorem scan_iff : ∀ (l : List Char) (under : Bool) (n m : Nat) (rest : List Char),
    scanDigits val under n l = some (m, rest) ↔
      ∃ body, l = body ++ rest ∧ bodyOk val under body ∧ m = (body.filterMap val).foldl (fun a d => 10 * a + d) n ∧
        (∀ c ∈ rest.head?, val c = none ∧ c ≠ '_')
  | [], under, n, m, rest => by
    simp only [scanDigits]
    constructor
    · intro h
      split at h
      · cases h
      · rename_i hu
        simp only [Option.some.injEq, Prod.mk.injEq] at h
        obtain ⟨rfl, rfl⟩ := h
        exact ⟨[], rfl, by simpa [bodyOk] using hu, rfl, by simp⟩
    · rintro ⟨body, h, hb, hm, _⟩
      obtain ⟨rfl, rfl⟩ := List.append_eq_nil_iff.1 h.symm
      simp only [bodyOk] at hb
      simp [hb, hm]
  | c :: cs, under, n, m, rest => by
    rw [scanDigits]
    cases hv : val c with
    | some d =>
      dsimp only
      rw [scan_iff cs]
      constructor
      · rintro ⟨body, rfl, hb, hm, hr⟩
        exact ⟨c :: body, rfl, Or.inl ⟨by simp [hv], hb⟩, by simpa [hv] using hm, hr⟩
      · rintro ⟨body, h, hb, hm, hr⟩
        cases body with
        | nil =>
          obtain rfl : c :: cs = rest := h
          have := (hr c rfl).1
          rw [hv] at this; cases this
        | cons c' body =>
          obtain ⟨rfl, rfl⟩ : c = c' ∧ cs = body ++ rest := by simpa using h
          refine ⟨body, rfl, ?_, by simpa [hv] using hm, hr⟩
          rcases hb with ⟨_, hb⟩ | ⟨h', _⟩
          · exact hb
          · rw [hv] at h'; cases h'
    | none =>
      dsimp only
      by_cases hc : c = '_'
      · rw [if_pos hc]
        cases under with
        | true =>
          simp only [if_true]
          constructor
          · intro h; cases h
          · rintro ⟨body, h, hb, _, hr⟩
            cases body with
            | nil => simp [bodyOk] at hb
            | cons c' body =>
              obtain ⟨rfl, rfl⟩ : c = c' ∧ cs = body ++ rest := by simpa using h
              simp [bodyOk, hv] at hb
        | false =>
          rw [if_neg (by decide), scan_iff cs]
          constructor
          · rintro ⟨body, rfl, hb, hm, hr⟩
            exact ⟨c :: body, rfl, Or.inr ⟨hv, hc, rfl, hb⟩, by simpa [hv] using hm, hr⟩
          · rintro ⟨body, h, hb, hm, hr⟩
            cases body with
            | nil =>
              obtain rfl : c :: cs = rest := h
              exact absurd hc (hr c rfl).2
            | cons c' body =>
              obtain ⟨rfl, rfl⟩ : c = c' ∧ cs = body ++ rest := by simpa using h
              refine ⟨body, rfl, ?_, by simpa [hv] using hm, hr⟩
              rcases hb with ⟨h', _⟩ | ⟨_, _, _, hb⟩
              · simp [hv] at h'
              · exact hb
      · rw [if_neg hc]
        constructor
        · intro h
          split at h
          · cases h
          · rename_i hu
            simp only [Option.some.injEq, Prod.mk.injEq] at h
            obtain ⟨rfl, rfl⟩ := h
            exact ⟨[], rfl, by simpa [bodyOk] using hu, rfl, by simp [hv, hc]⟩
        · rintro ⟨body, h, hb, hm, hr⟩
          cases body with
          | nil =>
            obtain rfl : c :: cs = rest := h
            simp only [bodyOk] at hb
            simp [hb, hm]
          | cons c' body =>
            obtain ⟨rfl, rfl⟩ : c = c' ∧ cs = body ++ rest := by simpa using h
            simp [bodyOk, hv, hc] at hb

/-- the two ways to say that the underscores are between digits -/
theorem bodyOk_iff (hu : val '_' = none) : ∀ (body : List Char) (under : Bool), bodyOk val under body ↔
    (∀ c ∈ body, (val c).isSome ∨ c = '_') ∧ List.IsChain (fun a b => ¬ (a = '_' ∧ b = '_')) body ∧
      (∀ c ∈ body.getLast?, c ≠ '_') ∧ (under = true → ∃ c ∈ body.head?, c ≠ '_')
  | [], under => by cases under <;> simp [bodyOk]
  | c :: cs, under => by
    have ne : ∀ {x : Char}, (val x).isSome → x ≠ '_' := by
      rintro x hx rfl
      simp [hu] at hx
    have lst : ∀ {x : Char}, x ∈ (c :: cs).getLast? → (cs = [] ∧ x = c) ∨ x ∈ cs.getLast? := by
      intro x hx
      cases cs with
      | nil => left; simpa using hx.symm
      | cons a t => right; simpa using hx
    have lst' : ∀ {x : Char}, x ∈ cs.getLast? → x ∈ (c :: cs).getLast? := by
      intro x hx
      cases cs with
      | nil => simp at hx
      | cons a t => simpa using hx
    simp only [bodyOk, bodyOk_iff hu cs]
    constructor
    · rintro (⟨h1, h2, h3, h4, -⟩ | ⟨h0, rfl, rfl, h2, h3, h4, h5⟩)
      · refine ⟨?_, ?_, ?_, fun _ => ⟨c, rfl, ne h1⟩⟩
        · rintro x (_ | ⟨_, hx⟩)
          · exact Or.inl h1
          · exact h2 x hx
        · rw [List.isChain_cons]
          exact ⟨fun y _ h => ne h1 h.1, h3⟩
        · intro x hx
          rcases lst hx with ⟨_, rfl⟩ | hx
          · exact ne h1
          · exact h4 x hx
      · obtain ⟨a, ha, hne⟩ := h5 trivial
        refine ⟨?_, ?_, ?_, by simp⟩
        · rintro x (_ | ⟨_, hx⟩)
          · exact Or.inr rfl
          · exact h2 x hx
        · rw [List.isChain_cons]
          refine ⟨fun y hy h => hne ?_, h3⟩
          rw [Option.mem_def] at hy ha
          rw [ha] at hy
          cases hy; exact h.2
        · intro x hx
          rcases lst hx with ⟨e, _⟩ | hx
          · subst e; simp at ha
          · exact h4 x hx
    · rintro ⟨h1, h2, h3, h4⟩
      rw [List.isChain_cons] at h2
      have h1' : ∀ x ∈ cs, (val x).isSome ∨ x = '_' := fun x hx => h1 x (List.mem_cons_of_mem _ hx)
      by_cases hc : c = '_'
      · right
        subst hc
        refine ⟨hu, rfl, ?_, h1', h2.2, fun x hx => h3 x (lst' hx), fun _ => ?_⟩
        · cases under with
          | false => rfl
          | true => obtain ⟨a, ha, hne⟩ := h4 rfl; simp at ha; exact absurd ha.symm hne
        · cases cs with
          | nil => exact absurd rfl (h3 '_' (by simp))
          | cons a t => exact ⟨a, rfl, fun e => h2.1 a rfl ⟨rfl, e⟩⟩
      · left
        have := (h1 c (by simp)).resolve_right hc
        exact ⟨this, h1', h2.2, fun x hx => h3 x (lst' hx), by simp⟩


/-- the sign that is taken -/
theorem takeSign_some (l : List Char) : ∃ sign, l = sign ++ (takeSign l).2 ∧
    (sign = [] ∧ (takeSign l).1 = false ∨ sign = ['+'] ∧ (takeSign l).1 = false ∨ sign = ['-'] ∧ (takeSign l).1 = true) := by
  unfold takeSign
  split
  · exact ⟨['+'], rfl, by simp⟩
  · exact ⟨['-'], rfl, by simp⟩
  · exact ⟨[], rfl, by simp⟩

theorem digitOf_blank {digit : Char → Option Nat} {space : Char → Bool} {c : Char} (h : isBlank space c = true) :
    digitOf digit space c = none := by
  unfold isBlank at h
  unfold digitOf
  split at h
  · rename_i hc
    rw [if_pos hc, if_neg]
    have := of_decide_eq_true h
    simp only [List.mem_cons, List.not_mem_nil, or_false] at this
    rcases this with rfl | rfl | rfl | rfl | rfl | rfl <;> decide
  · rename_i hc
    rw [if_neg hc, if_pos h]

theorem bodyOk_text {body : List Char} (hu : val '_' = none) :
    DigitText val body ↔ bodyOk val false body ∧ ∃ c cs, body = c :: cs ∧ (val c).isSome := by
  rw [bodyOk_iff hu]
  constructor
  · rintro ⟨⟨c, d, h1, h2⟩, ⟨c', d', h3, h4⟩, h5, h6⟩
    refine ⟨⟨h5, h6, ?_, by simp⟩, ?_⟩
    · intro x hx e
      rw [Option.mem_def, h3] at hx
      cases hx
      rw [e, hu] at h4
      cases h4
    · cases body with
      | nil => cases h1
      | cons a t =>
        cases h1
        exact ⟨c, t, rfl, by simp [h2]⟩
  · rintro ⟨⟨h5, h6, h7, -⟩, c, cs, rfl, hc⟩
    obtain ⟨d, hd⟩ := Option.isSome_iff_exists.1 hc
    have hl : (c :: cs).getLast? = some ((c :: cs).getLast (by simp)) := List.getLast?_eq_some_getLast (by simp)
    have hm := h5 _ (List.getLast_mem (l := c :: cs) (by simp))
    obtain ⟨d', hd'⟩ := Option.isSome_iff_exists.1 (hm.resolve_right (h7 _ hl))
    exact ⟨⟨c, d, rfl, hd⟩, ⟨_, d', hl, hd'⟩, h5, h6⟩

/-- **C168.** `int` accepts exactly the texts that consist of decimal digits with single underscores between them, with a sign or
not and white space around it, and returns the number they stand for. -/
theorem C168_int (digit : Char → Option Nat) (space : Char → Bool) (text : List Char) (k : Int) :
    intChars digit space text = some k ↔ Numeral (digitOf digit space) (isBlank space) text k := by
  have hu : digitOf digit space '_' = none := by simp [digitOf]
  constructor
  · intro h
    unfold intChars at h
    obtain ⟨sign, hl, hs⟩ := takeSign_some (text.dropWhile (isBlank space))
    rcases ht : takeSign (text.dropWhile (isBlank space)) with ⟨minus, l⟩
    rw [ht] at h hl hs
    dsimp only at hl hs
    cases l with
    | nil => cases h
    | cons c cs =>
      dsimp only at h
      split at h
      · cases h
      · rename_i hc
        cases hsc : scanDigits (digitOf digit space) false 0 (c :: cs) with
        | none => rw [hsc] at h; cases h
        | some p =>
          obtain ⟨n, rest⟩ := p
          rw [hsc] at h
          dsimp only at h
          split at h
          · rename_i hr
            obtain ⟨body, hb1, hb2, hb3, hb4⟩ := (scan_iff _ _ _ _ _).1 hsc
            have hsome : (digitOf digit space c).isSome := by simpa [Option.isSome_iff_ne_none] using hc
            have hbody : ∃ c' cs', body = c' :: cs' ∧ (digitOf digit space c').isSome := by
              cases body with
              | nil =>
                obtain rfl : c :: cs = rest := hb1
                rw [(hb4 c rfl).1] at hsome
                cases hsome
              | cons c' cs' =>
                obtain ⟨rfl, -⟩ : c = c' ∧ cs = cs' ++ rest := by simpa using hb1
                exact ⟨c, cs', rfl, hsome⟩
            refine ⟨text.takeWhile (isBlank space), sign, body, rest, ?_, ?_, ?_, ?_, (bodyOk_text hu).2 ⟨hb2, hbody⟩, ?_⟩
            · rw [List.append_assoc, List.append_assoc, ← hb1, ← hl, List.takeWhile_append_dropWhile]
            · intro x hx
              exact List.mem_takeWhile_imp hx
            · simpa using hr
            · rcases hs with ⟨a, _⟩ | ⟨a, _⟩ | ⟨a, _⟩ <;> simp [a]
            · simp only [Option.some.injEq] at h
              rw [← h, hb3]
              rcases hs with ⟨rfl, rfl⟩ | ⟨rfl, rfl⟩ | ⟨rfl, rfl⟩ <;> simp [digitsValue]
          · cases h
  · rintro ⟨pre, sign, body, post, rfl, hpre, hpost, hs, hd, rfl⟩
    obtain ⟨hb, c, cs, rfl, hc⟩ := (bodyOk_text hu).1 hd
    have hcb : isBlank space c = false := by
      by_contra hh
      rw [digitOf_blank (by simpa using hh)] at hc
      cases hc
    have hplus : c ≠ '+' := by
      rintro rfl
      exact absurd hc (by simp [digitOf])
    have hminus : c ≠ '-' := by
      rintro rfl
      exact absurd hc (by simp [digitOf])
    have hdrop : (pre ++ sign ++ (c :: cs) ++ post).dropWhile (isBlank space) = sign ++ (c :: cs) ++ post := by
      rw [List.append_assoc, List.append_assoc, List.dropWhile_append_of_pos hpre, ← List.append_assoc]
      rcases hs with rfl | rfl | rfl
      · simp [hcb]
      · rw [List.append_assoc, List.singleton_append, List.dropWhile_cons_of_neg (by simp [isBlank])]
      · rw [List.append_assoc, List.singleton_append, List.dropWhile_cons_of_neg (by simp [isBlank])]
    have hsign : takeSign (sign ++ (c :: cs) ++ post) = (decide (sign = ['-']), c :: (cs ++ post)) := by
      rcases hs with rfl | rfl | rfl
      · simp [takeSign, hplus, hminus]
      · rfl
      · rfl
    have hscan : scanDigits (digitOf digit space) false 0 (c :: (cs ++ post)) =
        some (digitsValue ((c :: cs).filterMap (digitOf digit space)), post) := by
      rw [scan_iff]
      refine ⟨c :: cs, rfl, hb, rfl, ?_⟩
      intro x hx
      have hxb := hpost x (List.mem_of_mem_head? hx)
      refine ⟨digitOf_blank hxb, ?_⟩
      rintro rfl
      simp [isBlank] at hxb
    unfold intChars
    rw [hdrop, hsign]
    dsimp only
    rw [if_neg (by simp [Option.isSome_iff_ne_none] at hc ⊢; exact hc), hscan]
    dsimp only
    rw [if_pos (by simpa using hpost)]
    by_cases hm : sign = ['-'] <;> simp [hm]


/-! ### decimal numbers -/

theorem digitOf_ascii (digit : Char → Option Nat) (space : Char → Bool) {c : Char} (h : c.isDigit = true) :
    digitOf digit space c = some (c.toNat - 48) := by
  have : c.toNat < 127 := by
    simp only [Char.isDigit, Bool.and_eq_true, decide_eq_true_eq] at h
    have h2 := h.2
    rw [UInt32.le_iff_toNat_le] at h2
    exact Nat.lt_of_le_of_lt h2 (by decide)
  rw [digitOf, if_pos this, if_pos h]

theorem digitText_ascii (digit : Char → Option Nat) (space : Char → Bool) {l : List Char} (hne : l ≠ [])
    (h : ∀ c ∈ l, c.isDigit = true) : DigitText (digitOf digit space) l := by
  have hu : digitOf digit space '_' = none := by simp [digitOf]
  have hb : ∀ l : List Char, (∀ c ∈ l, c.isDigit = true) → bodyOk (digitOf digit space) false l := by
    intro l
    induction l with
    | nil => intro _; rfl
    | cons c cs ih =>
      intro h
      exact Or.inl ⟨by rw [digitOf_ascii digit space (h c (by simp))]; rfl, ih fun x hx => h x (List.mem_cons_of_mem _ hx)⟩
  rw [bodyOk_text hu]
  obtain ⟨c, cs, rfl⟩ := List.exists_cons_of_ne_nil hne
  exact ⟨hb _ h, c, cs, rfl, by rw [digitOf_ascii digit space (h c (by simp))]; rfl⟩

theorem value_ascii (digit : Char → Option Nat) (space : Char → Bool) : ∀ (l : List Char) (n : Nat), (∀ c ∈ l, c.isDigit = true) →
    (l.filterMap (digitOf digit space)).foldl (fun a d => 10 * a + d) n = Nat.ofDigitChars 10 l n
  | [], n, _ => by simp
  | c :: cs, n, h => by
    rw [List.filterMap_cons_some (digitOf_ascii digit space (h c (by simp))), List.foldl_cons,
      value_ascii digit space cs _ fun x hx => h x (List.mem_cons_of_mem _ hx), Nat.ofDigitChars_cons]
    rfl

theorem toString_chars (n : Nat) : (toString n).toList = Nat.toDigits 10 n := by
  show (Nat.repr n).toList = _
  simp [Nat.repr]

theorem decimal_text (digit : Char → Option Nat) (space : Char → Bool) (n : Nat) :
    DigitText (digitOf digit space) (toString n).toList ∧
      digitsValue ((toString n).toList.filterMap (digitOf digit space)) = n := by
  refine ⟨digitText_ascii digit space ?_ (digits_nat n), ?_⟩
  · rw [toString_chars]
    exact Nat.toDigits_ne_nil
  · rw [digitsValue, value_ascii digit space _ _ (digits_nat n), toString_chars, Nat.ofDigitChars_ten_toDigits]

/-- **C168.** A number written in decimal digits, negative or not, is read as that number, whatever Unicode says about the
characters outside ASCII.  So what C102, C123, C130, C131, C147 and C151 assume of `int` is true. -/
theorem C168_decimals (digit : Char → Option Nat) (space : Char → Bool) : ReadsDecimals (intOf digit space) := by
  intro n
  rw [intOf, C168_int]
  cases n with
  | ofNat n =>
    obtain ⟨h1, h2⟩ := decimal_text digit space n
    refine ⟨[], [], (toString n).toList, [], ?_, by simp, by simp, Or.inl rfl, h1, ?_⟩
    · rw [List.nil_append, List.nil_append, List.append_nil]; rfl
    · rw [h2]; simp
  | negSucc n =>
    obtain ⟨h1, h2⟩ := decimal_text digit space (n + 1)
    refine ⟨[], ['-'], (toString (n + 1)).toList, [], ?_, by simp, by simp, Or.inr (Or.inr rfl), h1, ?_⟩
    · show ("-" ++ Nat.repr (n + 1)).toList = _
      rw [String.toList_append, List.nil_append, List.append_nil]
      rfl
    · rw [h2, if_pos rfl]
      omega

/-- **C168.** A text stands for at most one number, so how it is split into sign, digits and white space does not matter. -/
theorem C168_unique (digit : Char → Option Nat) (space : Char → Bool) (text : List Char) (k k' : Int)
    (h : Numeral (digitOf digit space) (isBlank space) text k) (h' : Numeral (digitOf digit space) (isBlank space) text k') :
    k = k' := by
  rw [← C168_int] at h h'
  rw [h] at h'
  exact Option.some.inj h'

/-- **C168.** A tag is read as the draw or discard of a tile only if letter and numeral say so. -/
theorem C168_tags {digit : Char → Option Nat} {space : Char → Bool} (i : Item) (p : Fin 4) (t : Nat) :
    (toEv (intOf digit space) i = .draw p (.ok t) →
      ∃ rest, i.tag.toList = drawLetter p :: rest ∧ Numeral (digitOf digit space) (isBlank space) rest t) ∧
    (toEv (intOf digit space) i = .discard p (.ok t) →
      ∃ rest, i.tag.toList = discardLetter p :: rest ∧ Numeral (digitOf digit space) (isBlank space) rest t) := by
  constructor
  · intro h
    obtain ⟨rest, h1, h2⟩ := (C102_only i p t).1 h
    refine ⟨rest, by rw [h1, String.toList_ofList], ?_⟩
    rw [← C168_int]
    simpa [intOf] using h2
  · intro h
    obtain ⟨rest, h1, h2⟩ := (C102_only i p t).2 h
    refine ⟨rest, by rw [h1, String.toList_ofList], ?_⟩
    rw [← C168_int]
    simpa [intOf] using h2

/-- C168 is not vacuous: texts that are read and texts that are not -/
example : intChars (fun _ => none) (fun _ => false) " -1_000\n".toList = some (-1000) ∧
    intChars (fun _ => none) (fun _ => false) "+007".toList = some 7 ∧
    intChars (fun _ => none) (fun _ => false) "1__0".toList = none ∧
    intChars (fun _ => none) (fun _ => false) "_1".toList = none ∧
    intChars (fun _ => none) (fun _ => false) "1_".toList = none ∧
    intChars (fun _ => none) (fun _ => false) "- 1".toList = none ∧
    intChars (fun _ => none) (fun _ => false) "".toList = none ∧
    intChars (fun _ => none) (fun _ => false) "1.0".toList = none := by decide +kernel

end MJ
