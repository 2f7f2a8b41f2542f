import Verif.Model.Decision
import Verif.Props.MeldCanon
/-!
What `decision_mask` offers, as a predicate.
-/
namespace MJ
open Code

/-- the offered chis of lowest number `n`, called position `w`, red flag `r` on a discard of
kind `t` -/
def ChiOffer (h : Hand) (t : Nat) (is_red : Bool) (n w : Nat) (r : Bool) : Prop :=
  t < 27 ∧ n < 7 ∧ n ≤ t % 9 ∧ t % 9 ≤ n + 2 ∧
  (∀ j < 3, n + j ≠ t % 9 → h (9 * (t / 9) + n + j) ≠ 0) ∧
  (if t % 9 = 4 then r = is_red
   else if n ≤ 4 ∧ 4 ≤ n + 2 then
     (if hasRed h t then r = true ∨ 0 < blackFives h t else r = false)
   else r = false) ∧
  w = (if t % 9 = 3 ∧ n = 2 ∧ hasRed h t then 0 else if t % 9 = 5 ∧ n = 4 ∧ hasRed h t then 2 else t % 9 - n)

/-- the offered pons -/
def PonOffer (h : Hand) (t : Nat) (is_red : Bool) (w : Nat) (r : Bool) : Prop :=
  if t < 27 ∧ t % 9 = 4 then
    (if hasRed h t then (h t = 2 ∧ w = 1 ∧ r = true) ∨ (h t = 3 ∧ w = 0 ∧ r = false)
     else h t = 2 ∧ w = is_red.toNat ∧ r = is_red)
  else h t = 2 ∧ w = 0 ∧ r = false

/-- the offered open kans -/
def KanOffer (h : Hand) (t : Nat) (is_red : Bool) (w : Nat) : Prop :=
  h t = 3 ∧ w = if t < 27 ∧ t % 9 = 4 then is_red.toNat else 0

/-- the codes offered -/
def Offered (player p : Nat) (h : Hand) (t : Nat) (is_red : Bool) (c : Nat) : Prop :=
  (isNext player p = true ∧ ∃ n w r, ChiOffer h t is_red n w r ∧ c = chiInfo (t / 9) n w r) ∨
  (∃ w r, PonOffer h t is_red w r ∧ c = ponInfo t w r (source player p)) ∨
  (∃ w, KanOffer h t is_red w ∧ c = minkanInfo t (source player p) w)

/-- a guarded append -/
def offP (p : Nat) (cond : Bool) (c : Nat) : List NakiDecision := if cond then [⟨p, Naki.raw c, false⟩] else []

theorem offer_chi (p : Nat) (cond : Bool) (color number which : Nat) (r : Bool) (hc : color < 3)
    (hn : number < 7) (hw : which < 3) (hr : r = true → 2 ≤ number ∧ number ≤ 4) :
    offer p cond (Naki.from_chi_info color number which r) is_chi = .ok (offP p cond (chiInfo color number which r)) := by
  obtain ⟨n, hn', h⟩ := C01_chi_roundtrip color number which r hc hn hw hr
  have h2 : n = Naki.raw (chiInfo color number which r) := by
    unfold Naki.from_chi_info at hn'
    split at hn'
    · simp at hn'
    · simpa using hn'.symm
  have hc : is_chi n.naki_code = true := by
    have := h.2.2.2.2.2.1.1
    simpa using this
  cases cond
  · simp [offer, offP]
  · simp only [offer, offP, if_true, hn', hc]
    rw [h2]

theorem offer_chi' (p : Nat) (cond : Bool) (color number which : Nat) :
    offer p cond (Naki.from_chi_info color number which false) (fun _ => true) =
      .ok (offP p cond (chiInfo color number which false)) := by
  cases cond <;> simp [offer, offP, Naki.from_chi_info, Naki.raw]

theorem offer_pon (p : Nat) (cond : Bool) (t which src : Nat) (r : Bool) (ht : t < 34) (hw : which < 2)
    (hr : r = true → t < 27 ∧ t % 9 = 4) :
    offer p cond (Naki.from_pon_info t which r src) is_pon = .ok (offP p cond (ponInfo t which r src)) := by
  obtain ⟨n, hn', h⟩ := C02_pon_roundtrip t which src r ht hw hr
  have h2 : n = Naki.raw (ponInfo t which r src) := by
    unfold Naki.from_pon_info at hn'
    split at hn'
    · simpa using hn'.symm
    · simp at hn'
  have hc : is_pon n.naki_code = true := by
    have := h.2.2.2.2.2.1.2.1
    simpa using this
  cases cond
  · simp [offer, offP]
  · simp only [offer, offP, if_true, hn', hc]
    rw [h2]

theorem offer_minkan (p : Nat) (cond : Bool) (t which src : Nat) (ht : t < 34) (hw : which < 2)
    (hs : src % 4 ≠ 0) :
    offer p cond (Naki.from_minkan_info t src which) is_minkan = .ok (offP p cond (minkanInfo t src which)) := by
  obtain ⟨n, hn', h⟩ := C03_minkan_roundtrip t src which ht hw hs
  have h2 : n = Naki.raw (minkanInfo t src which) := by
    unfold Naki.from_minkan_info at hn'
    split at hn'
    · simpa using hn'.symm
    · simp at hn'
  have hc : is_minkan n.naki_code = true := by
    have := h.2.2.2.2.1.2.2.2.1
    simpa using this
  cases cond
  · simp [offer, offP]
  · simp only [offer, offP, if_true, hn', hc]
    rw [h2]

theorem mem_offP (p : Nat) (cond : Bool) (c : Nat) (d : NakiDecision) :
    d ∈ offP p cond c ↔ cond = true ∧ d = ⟨p, Naki.raw c, false⟩ := by
  cases cond <;> simp [offP]

theorem source_ne (player p : Nat) (hp : p < 4) (hq : player < 4) (hne : p ≠ player) :
    source player p % 4 ≠ 0 ∧ source player p < 4 := by
  unfold source; omega

/-- an `Except` computation that succeeds and whose result has exactly the members
described by `P` -/
def Yields (r : Except PyErr (List NakiDecision)) (p : Nat) (P : Nat → Prop) : Prop :=
  ∃ l, r = .ok l ∧ ∀ d, d ∈ l ↔ ∃ c, P c ∧ d = ⟨p, Naki.raw c, false⟩

theorem yields_offP {r : Except PyErr (List NakiDecision)} {p c : Nat} {cond : Bool}
    (h : r = .ok (offP p cond c)) : Yields r p (fun x => cond = true ∧ x = c) := by
  refine ⟨_, h, ?_⟩
  intro d
  rw [mem_offP]
  constructor
  · rintro ⟨h1, h2⟩; exact ⟨c, ⟨h1, rfl⟩, h2⟩
  · rintro ⟨x, ⟨h1, rfl⟩, h2⟩; exact ⟨h1, h2⟩

theorem yields_append {r s : Except PyErr (List NakiDecision)} {p : Nat} {P Q : Nat → Prop}
    (h : Yields r p P) (g : Yields s p Q) :
    Yields (do let a ← r; let b ← s; return a ++ b) p (fun x => P x ∨ Q x) := by
  obtain ⟨l, rfl, hl⟩ := h
  obtain ⟨m, rfl, hm⟩ := g
  refine ⟨l ++ m, rfl, ?_⟩
  intro d
  rw [List.mem_append, hl, hm]
  constructor
  · rintro (⟨c, h1, h2⟩ | ⟨c, h1, h2⟩)
    · exact ⟨c, .inl h1, h2⟩
    · exact ⟨c, .inr h1, h2⟩
  · rintro ⟨c, h1 | h1, h2⟩
    · exact .inl ⟨c, h1, h2⟩
    · exact .inr ⟨c, h1, h2⟩

theorem yields_append3 {r s u : Except PyErr (List NakiDecision)} {p : Nat} {P Q R : Nat → Prop}
    (h : Yields r p P) (g : Yields s p Q) (k : Yields u p R) :
    Yields (do let a ← r; let b ← s; let c ← u; return a ++ b ++ c) p (fun x => P x ∨ Q x ∨ R x) := by
  obtain ⟨l, rfl, hl⟩ := h
  obtain ⟨m, rfl, hm⟩ := g
  obtain ⟨n, rfl, hn⟩ := k
  refine ⟨l ++ m ++ n, rfl, ?_⟩
  intro d
  rw [List.mem_append, List.mem_append, hl, hm, hn]
  constructor
  · rintro ((⟨c, h1, h2⟩ | ⟨c, h1, h2⟩) | ⟨c, h1, h2⟩)
    · exact ⟨c, .inl h1, h2⟩
    · exact ⟨c, .inr (.inl h1), h2⟩
    · exact ⟨c, .inr (.inr h1), h2⟩
  · rintro ⟨c, h1 | h1 | h1, h2⟩
    · exact .inl (.inl ⟨c, h1, h2⟩)
    · exact .inl (.inr ⟨c, h1, h2⟩)
    · exact .inr ⟨c, h1, h2⟩

theorem yields_nil (p : Nat) : Yields (.ok []) p (fun _ => False) :=
  ⟨[], rfl, by simp⟩

theorem yields_ite {r : Except PyErr (List NakiDecision)} {p : Nat} {P : Nat → Prop} (b : Bool)
    (h : Yields r p P) : Yields (whenE b r) p (fun x => b = true ∧ P x) := by
  cases b
  · obtain ⟨l, h1, h2⟩ := yields_nil p
    exact ⟨l, h1, by simpa using h2⟩
  · obtain ⟨l, h1, h2⟩ := h
    exact ⟨l, h1, by simpa using h2⟩

theorem yields_congr {r : Except PyErr (List NakiDecision)} {p : Nat} {P Q : Nat → Prop}
    (h : Yields r p P) (e : ∀ x, P x ↔ Q x) : Yields r p Q := by
  obtain ⟨l, h1, h2⟩ := h
  refine ⟨l, h1, ?_⟩
  intro d
  rw [h2]
  simp only [e]

theorem yields_ponKan (player p : Nat) (h : Hand) (t : Nat) (ht : t < 34) (hp : p < 4) (hq : player < 4)
    (hne : p ≠ player) :
    Yields (ponKan player p h t) p (fun c =>
      (h t = 2 ∧ c = ponInfo t 0 false (source player p)) ∨ (h t = 3 ∧ c = minkanInfo t (source player p) 0)) := by
  have a := yields_offP (offer_pon p (h t == 2) t 0 (source player p) false ht (by omega) (by simp))
  have b := yields_offP (offer_minkan p (h t == 3) t 0 (source player p) ht (by omega) (source_ne player p hp hq hne).1)
  exact yields_congr (yields_append a b) (fun x => by simp)

theorem yields_fiveRun (p : Nat) (h : Hand) (t number which whichBlack : Nat) (ht : t < 27)
    (hn : 2 ≤ number) (hn2 : number ≤ 4) (hw : which < 3) (hw2 : whichBlack < 3) :
    Yields (fiveRun p h t number which whichBlack) p (fun c =>
      ∃ r, (if hasRed h t then r = true ∨ 0 < blackFives h t else r = false) ∧
        c = chiInfo (t / 9) number (if hasRed h t then which else whichBlack) r) := by
  unfold fiveRun
  cases hr : hasRed h t
  · have a := yields_offP (offer_chi p true (t / 9) number whichBlack false (by omega) (by omega) hw2 (by simp))
    exact yields_congr a (fun x => by simp)
  · have a := yields_offP (offer_chi p true (t / 9) number which true (by omega) (by omega) hw (fun _ => ⟨hn, hn2⟩))
    have b := yields_offP (offer_chi p (decide (0 < blackFives h t)) (t / 9) number which false (by omega) (by omega) hw (by simp))
    refine yields_congr (yields_append a b) (fun x => ?_)
    simp only [true_and, decide_eq_true_eq, if_true]
    constructor
    · rintro (h1 | ⟨h1, h2⟩)
      · exact ⟨true, .inl rfl, h1⟩
      · exact ⟨false, .inr h1, h2⟩
    · rintro ⟨r, h1, h2⟩
      cases r
      · exact .inr ⟨by simpa using h1, h2⟩
      · exact .inl h2

theorem slot_eq (h : Hand) (i : Int) (n : Nat) (e : i = n) : slot h i = h n := by
  subst e; rfl

theorem mul_bne (a b : Int) : (a * b != 0) = true ↔ a ≠ 0 ∧ b ≠ 0 := by
  simp [Int.mul_eq_zero]

/-- the pon and kan part of `Offered` for kinds that are not fives -/
theorem offered_rest (player p : Nat) (h : Hand) (t : Nat) (is_red : Bool) (hf : ¬ (t < 27 ∧ t % 9 = 4)) (c : Nat) :
    ((∃ w r, PonOffer h t is_red w r ∧ c = ponInfo t w r (source player p)) ∨
      (∃ w, KanOffer h t is_red w ∧ c = minkanInfo t (source player p) w)) ↔
    ((h t = 2 ∧ c = ponInfo t 0 false (source player p)) ∨ (h t = 3 ∧ c = minkanInfo t (source player p) 0)) := by
  simp only [PonOffer, KanOffer, hf, if_false]
  constructor
  · rintro (⟨w, r, ⟨h1, rfl, rfl⟩, h2⟩ | ⟨w, ⟨h1, rfl⟩, h2⟩)
    · exact .inl ⟨h1, h2⟩
    · exact .inr ⟨h1, h2⟩
  · rintro (⟨h1, h2⟩ | ⟨h1, h2⟩)
    · exact .inl ⟨0, false, ⟨h1, rfl, rfl⟩, h2⟩
    · exact .inr ⟨0, ⟨h1, rfl⟩, h2⟩

theorem chiOffer_cases (h : Hand) (q k : Nat) (hq : q < 3) (hk : k < 9) (is_red : Bool) (P : Nat → Nat → Bool → Prop) :
    (∃ n w r, ChiOffer h (9 * q + k) is_red n w r ∧ P n w r) ↔
    ∃ n, n < 7 ∧ n ≤ k ∧ k ≤ n + 2 ∧ (∀ j < 3, n + j ≠ k → h (9 * q + n + j) ≠ 0) ∧
      ∃ r, (if k = 4 then r = is_red
        else if n ≤ 4 ∧ 4 ≤ n + 2 then
          (if hasRed h (9 * q + k) then r = true ∨ 0 < blackFives h (9 * q + k) else r = false)
        else r = false) ∧
        P n (if k = 3 ∧ n = 2 ∧ hasRed h (9 * q + k) then 0 else if k = 5 ∧ n = 4 ∧ hasRed h (9 * q + k) then 2 else k - n) r := by
  have e1 : (9 * q + k) % 9 = k := by omega
  have e2 : (9 * q + k) / 9 = q := by omega
  have e3 : 9 * q + k < 27 := by omega
  simp only [ChiOffer, e1, e2, e3, true_and]
  constructor
  · rintro ⟨n, w, r, ⟨h1, h2, h3, h4, h5, h6⟩, h7⟩
    exact ⟨n, h1, h2, h3, h4, r, h5, h6 ▸ h7⟩
  · rintro ⟨n, h1, h2, h3, h4, r, h5, h7⟩
    exact ⟨n, _, r, ⟨h1, h2, h3, h4, h5, rfl⟩, h7⟩

theorem forall_lt3 (P : Nat → Prop) : (∀ j < 3, P j) ↔ P 0 ∧ P 1 ∧ P 2 := by
  constructor
  · intro h; exact ⟨h 0 (by omega), h 1 (by omega), h 2 (by omega)⟩
  · rintro ⟨h0, h1, h2⟩ j hj
    match j, hj with
    | 0, _ => exact h0
    | 1, _ => exact h1
    | 2, _ => exact h2

theorem exists_lt7 (P : Nat → Prop) :
    (∃ n, n < 7 ∧ P n) ↔ P 0 ∨ P 1 ∨ P 2 ∨ P 3 ∨ P 4 ∨ P 5 ∨ P 6 := by
  constructor
  · rintro ⟨n, hn, h⟩
    match n, hn with
    | 0, _ => exact .inl h
    | 1, _ => exact .inr (.inl h)
    | 2, _ => exact .inr (.inr (.inl h))
    | 3, _ => exact .inr (.inr (.inr (.inl h)))
    | 4, _ => exact .inr (.inr (.inr (.inr (.inl h))))
    | 5, _ => exact .inr (.inr (.inr (.inr (.inr (.inl h)))))
    | 6, _ => exact .inr (.inr (.inr (.inr (.inr (.inr h)))))
  · rintro (h | h | h | h | h | h | h)
    · exact ⟨0, by omega, h⟩
    · exact ⟨1, by omega, h⟩
    · exact ⟨2, by omega, h⟩
    · exact ⟨3, by omega, h⟩
    · exact ⟨4, by omega, h⟩
    · exact ⟨5, by omega, h⟩
    · exact ⟨6, by omega, h⟩

end MJ
