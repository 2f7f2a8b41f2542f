import Verif.Proofs.Rows
/-!
When the tensor builders succeed.
-/
namespace MJ
open Code Spec

theorem bind_total {α β : Type} {x : Except PyErr α} {f : α → Except PyErr β} (hx : ∃ a, x = .ok a) (hf : ∀ a, x = .ok a → ∃ b, f a = .ok b) :
    ∃ b, (x >>= f) = .ok b := by
  obtain ⟨a, rfl⟩ := hx
  exact hf a rfl

/-! ### what a half-turn needs -/

/-- everything in the half-turn has an action number -/
def Codes : HalfTurn → Prop
  | .during _ _ _ _ _ n => ∀ d ∈ n, ∃ i, get_during_turn_filter_idx d.naki.naki_code = .ok i ∧ i < 71
  | .post _ _ _ _ n => ∀ l ∈ n, ∀ d ∈ l, ∃ i, get_post_turn_filter_idx d.naki.naki_code = .ok i ∧ i < 154
  | .discard _ _ _ t => t < 136

theorem markIdx_total (v : Variant) (m : List Int) (i : Int) (h0 : 0 ≤ i) (h1 : i < m.length) :
    markIdx v m i = .ok (m.set i.toNat 1) := by
  unfold markIdx
  simp [h0, h1]

theorem duringNaki_total (v : Variant) (ns : List NakiDecision) : ∀ (m : List Int) (idx : Int), m.length = 71 →
    (∀ d ∈ ns, ∃ i, get_during_turn_filter_idx d.naki.naki_code = .ok i ∧ i < 71) →
    ∃ r, duringNaki v (ns.map .naki) m idx = .ok r := by
  induction ns with
  | nil => intro m idx _ _; exact ⟨_, rfl⟩
  | cons d ns ih =>
    intro m idx hm h
    obtain ⟨i, hi, hlt⟩ := h d (by simp)
    simp only [List.map_cons, duringNaki, hi]
    have := markIdx_total v m (i : Int) (by omega) (by omega)
    obtain ⟨r, hr⟩ := ih (m.set i 1) (if d.executed then (i : Int) else idx) (by simp [hm]) (fun d hd => h d (by simp [hd]))
    refine ⟨r, ?_⟩
    show (markIdx v m (i : Int) >>= fun m => duringNaki v (ns.map .naki) m _) = _
    rw [this]
    exact hr

theorem duringPass_total (v : Variant) (i : Nat) (l : List Decision) (m : List Int) (hi : i < 2) :
    ∃ m' j, duringPass v i l m = .ok (m', j) ∧ m'.length = m.length := by
  unfold duringPass
  split
  · exact ⟨_, _, rfl, rfl⟩
  · simp only
    split
    · exact ⟨_, _, rfl, by simp⟩
    · rw [if_pos (by omega)]
      exact ⟨_, _, rfl, by simp⟩

theorem duringLoop_total (v : Variant) (a : List AgariDecision) (r : List ReachDecision) (n : List NakiDecision)
    (h : ∀ d ∈ n, ∃ i, get_during_turn_filter_idx d.naki.naki_code = .ok i ∧ i < 71) :
    ∃ x, duringLoop v 0 (duringDecisions a r n) ((zeros 71).set 0 1) 0 = .ok x := by
  simp only [duringDecisions, duringLoop]
  obtain ⟨m1, j1, h1, l1⟩ := duringPass_total v 0 (a.map .agari) ((zeros 71).set 0 1) (by omega)
  obtain ⟨m2, j2, h2, l2⟩ := duringPass_total v 1 (r.map .reach) m1 (by omega)
  rw [h1]
  show ∃ x, (duringPass v 1 (r.map .reach) m1 >>= _) = .ok x
  rw [h2]
  show ∃ x, (duringPass v 2 (n.map .naki) m2 >>= _) = .ok x
  have hl : m2.length = 71 := by rw [l2, l1]; simp [zeros]
  refine bind_total ?_ (fun a _ => ⟨_, rfl⟩)
  unfold duringPass
  split
  · exact ⟨_, rfl⟩
  · simp only [if_neg (by omega : ¬ (2 : Nat) = 0), if_neg (by omega : ¬ (2 : Nat) = 1), if_true]
    exact duringNaki_total v n _ _ (by simp [hl]) h

theorem postNaki_total (v : Variant) (ns : List NakiDecision) : ∀ (acc : PostAcc), acc.mask.length = 154 →
    (∀ d ∈ ns, ∃ i, get_post_turn_filter_idx d.naki.naki_code = .ok i ∧ i < 154) →
    ∃ r, postNaki v (ns.map .naki) acc = .ok r := by
  induction ns with
  | nil => intro acc _ _; exact ⟨_, rfl⟩
  | cons d ns ih =>
    intro acc hm h
    obtain ⟨i, hi, hlt⟩ := h d (by simp)
    have h0 := post_idx_nonneg hi
    simp only [List.map_cons, postNaki, hi]
    have := markIdx_total v acc.mask i h0 (by omega)
    obtain ⟨r, hr⟩ := ih (if d.executed then ⟨acc.mask.set i.toNat 1, i, true⟩ else { acc with mask := acc.mask.set i.toNat 1 })
      (by split <;> simp [hm]) (fun d hd => h d (by simp [hd]))
    refine ⟨r, ?_⟩
    show (markIdx v acc.mask i >>= fun m => postNaki v (ns.map .naki) _) = _
    rw [this]
    exact hr

theorem postLoop_total (v : Variant) (a : List AgariDecision) (n : List NakiDecision)
    (h : ∀ d ∈ n, ∃ i, get_post_turn_filter_idx d.naki.naki_code = .ok i ∧ i < 154) :
    ∃ x, postLoop v 0 [a.map .agari, [], n.map .naki] ⟨zeros 154, 0, false⟩ = .ok x := by
  simp only [postLoop]
  have h1 : ∃ acc, postPass v 0 (a.map .agari) ⟨zeros 154, 0, false⟩ = .ok acc ∧ acc.mask.length = 154 := by
    unfold postPass
    split
    · exact ⟨_, rfl, by simp [zeros]⟩
    · simp only [if_true]
      split <;> exact ⟨_, rfl, by simp [zeros]⟩
  obtain ⟨acc, h1, hl⟩ := h1
  rw [h1]
  show ∃ x, (postPass v 1 [] acc >>= _) = .ok x
  show ∃ x, (postPass v 2 (n.map .naki) acc >>= _) = .ok x
  refine bind_total ?_ (fun a _ => ⟨_, rfl⟩)
  unfold postPass
  split
  · exact ⟨_, rfl⟩
  · simp only [if_neg (by omega : ¬ (2 : Nat) = 0), if_neg (by omega : ¬ (2 : Nat) = 1), if_true]
    exact postNaki_total v n _ (by simp [hl]) h

theorem postSeats_total (v : Variant) (s : RoundSt) (enc : List Nat) (o : StateObj) (e : Nat) (x2 : List (List Int))
    {a : List (List AgariDecision)} {n : List (List NakiDecision)} (ha : a.length = 4) (hn : n.length = 4)
    (h : ∀ l ∈ n, ∀ d ∈ l, ∃ i, get_post_turn_filter_idx d.naki.naki_code = .ok i ∧ i < 154) (seats : List Nat)
    (hs : ∀ p ∈ seats, p < 4) : ∀ b, ∃ b', postSeats v s enc o e x2 (postDecisions a n) seats b = .ok b' := by
  induction seats with
  | nil => intro b; exact ⟨_, rfl⟩
  | cons p ps ih =>
    intro b
    have hp : p < 4 := hs p (by simp)
    have ih := ih (fun q hq => hs q (by simp [hq]))
    simp only [postSeats, getElem?_postDecisions ha hn hp]
    split
    · exact ih b
    · refine bind_total (postLoop_total v _ _ ?_) (fun acc _ => ?_)
      · intro d hd
        refine h (callsOf n p) ?_ d hd
        unfold callsOf
        rw [show n.getD p [] = n[p]'(by omega) by simp [List.getD, (by omega : p < n.length)]]
        exact List.getElem_mem _
      · split
        · exact ⟨_, rfl⟩
        · exact ih _

/-- the position and the lists of points fit -/
def TurnFits (o : StateObj) (e : Nat) : Prop := e < 150 ∧ o.scores.length = 4 ∧ o.parent_rounds_remaining.length = 4

theorem fits_x2 {o : StateObj} {e : Nat} (h : TurnFits o e) (s : RoundSt) : ∃ x2, stateX2 o s = .ok x2 := by
  unfold stateX2
  rw [if_pos h.2]
  exact ⟨_, rfl⟩

theorem fits_of_x2 {o : StateObj} {e : Nat} {s : RoundSt} {x2 : List (List Int)} (he : e < 150)
    (h : stateX2 o s = .ok x2) : TurnFits o e := by
  unfold stateX2 at h
  split at h
  · rename_i hl
    exact ⟨he, hl⟩
  · simp at h

theorem pyAssert_total {b : Bool} (h : b = true) : ∃ u, pyAssert b = .ok u := ⟨(), by simp [pyAssert, h]⟩

/-- the half-turn is used for training -/
def Spec.sampled : HalfTurn → Prop
  | .during _ _ _ a r n => ¬ (a = [] ∧ r = [] ∧ n = [])
  | .discard .. => True
  | .post _ _ _ a n => ∃ p < 4, ¬ (winsOf a p = [] ∧ callsOf n p = [])

theorem during_sum (a : List AgariDecision) (r : List ReachDecision) (n : List NakiDecision) :
    ((duringDecisions a r n).map List.length).sum = 0 ↔ a = [] ∧ r = [] ∧ n = [] := by
  simp only [duringDecisions, List.map_cons, List.map_nil, List.length_map, List.sum_cons, List.sum_nil]
  rw [← List.length_eq_zero_iff, ← List.length_eq_zero_iff, ← List.length_eq_zero_iff]
  omega

theorem post_sum {a : List (List AgariDecision)} {n : List (List NakiDecision)} (ha : a.length = 4) (hn : n.length = 4) :
    ((postDecisions a n).map (fun ds => (ds.map List.length).sum)).sum = 0 ↔ ∀ p < 4, winsOf a p = [] ∧ callsOf n p = [] := by
  constructor
  · intro hz p hp
    have hmem := List.mem_of_getElem? (getElem?_postDecisions ha hn hp)
    have := List.sum_eq_zero_iff_forall_eq_nat.1 hz _ (List.mem_map.2 ⟨_, hmem, rfl⟩)
    simp only [List.map_cons, List.map_nil, List.length_map, List.sum_cons, List.sum_nil, List.length_nil] at this
    rw [← List.length_eq_zero_iff, ← List.length_eq_zero_iff]
    omega
  · intro h
    rw [List.sum_eq_zero_iff_forall_eq_nat]
    intro x hx
    obtain ⟨ds, hds, rfl⟩ := List.mem_map.1 hx
    obtain ⟨p, hp, hds⟩ := List.mem_iff_getElem.1 hds
    have hp4 : p < 4 := by
      simp [postDecisions, ha, hn] at hp
      exact hp
    have e := getElem?_postDecisions ha hn hp4
    rw [List.getElem?_eq_getElem hp, Option.some.injEq, hds] at e
    obtain ⟨h1, h2⟩ := h p hp4
    rw [e, h1, h2]
    rfl

/-! ### one half-turn -/

theorem duringTurn_iff (v : Variant) (s : RoundSt) (enc : List Nat) (b : Batch) (p : Nat) (o : StateObj) (e : Nat)
    (a : List AgariDecision) (r : List ReachDecision) (n : List NakiDecision) (hc : Codes (.during p o e a r n)) :
    (∃ b', duringTurn v s enc b p o e (duringDecisions a r n) = .ok b') ↔ (sampled (.during p o e a r n) → TurnFits o e) := by
  constructor
  · rintro ⟨b', h⟩ hs
    unfold duringTurn at h
    rw [if_neg (fun h => hs ((during_sum a r n).1 h))] at h
    simp only [bind_ok, pyAssert_ok, decide_eq_true_eq] at h
    obtain ⟨_, he, x2, hx2, _⟩ := h
    exact fits_of_x2 he hx2
  · intro hf
    unfold duringTurn
    by_cases hz : a = [] ∧ r = [] ∧ n = []
    · rw [if_pos ((during_sum a r n).2 hz)]
      exact ⟨_, rfl⟩
    · rw [if_neg (fun h => hz ((during_sum a r n).1 h))]
      have hf := hf hz
      refine bind_total (pyAssert_total (by simpa using hf.1)) (fun _ _ => bind_total (fits_x2 hf s) (fun x2 _ => ?_))
      exact bind_total (duringLoop_total v a r n hc) (fun x _ => ⟨_, rfl⟩)

theorem discardTurn_iff (v : Variant) (s : RoundSt) (enc : List Nat) (b : Batch) (p : Nat) (o : StateObj) (e t : Nat)
    (hc : Codes (.discard p o e t)) : (∃ b', discardTurn v s enc b p o e t = .ok b') ↔ TurnFits o e := by
  constructor
  · rintro ⟨b', h⟩
    simp only [discardTurn, bind_ok, pyAssert_ok, decide_eq_true_eq] at h
    obtain ⟨_, he, x2, hx2, _⟩ := h
    exact fits_of_x2 he hx2
  · intro hf
    unfold discardTurn
    refine bind_total (pyAssert_total (by simpa using hf.1)) (fun _ _ => bind_total (fits_x2 hf s) (fun x2 _ => ?_))
    have hc : t < 136 := hc
    refine bind_total ⟨(), by simp [checkTile, hc]⟩ (fun _ _ => ?_)
    refine bind_total (pyAssert_total ?_) (fun _ _ => ⟨_, rfl⟩)
    rw [tile2idx_headD]
    simp only [Bool.or_eq_true, decide_eq_true_eq]
    exact .inr (by omega)

theorem postTurn_iff (v : Variant) (s : RoundSt) (enc : List Nat) (b : Batch) (q : Nat) (o : StateObj) (e : Nat)
    (a : List (List AgariDecision)) (n : List (List NakiDecision)) (hf4 : FourLists (.post q o e a n))
    (hc : Codes (.post q o e a n)) :
    (∃ b', postTurn v s enc b q o e (postDecisions a n) = .ok b') ↔ (sampled (.post q o e a n) → TurnFits o e) := by
  obtain ⟨hq, ha, hn⟩ := hf4
  have hneg : (¬ ∀ p < 4, winsOf a p = [] ∧ callsOf n p = []) ↔ sampled (.post q o e a n) := by
    simp only [sampled, Classical.not_forall, exists_prop]
  constructor
  · rintro ⟨b', h⟩ hs
    unfold postTurn at h
    rw [if_neg (fun h => hneg.2 hs ((post_sum ha hn).1 h))] at h
    simp only [bind_ok, pyAssert_ok, decide_eq_true_eq] at h
    obtain ⟨_, he, x2, hx2, _⟩ := h
    exact fits_of_x2 he hx2
  · intro hf
    unfold postTurn
    by_cases hz : ∀ p < 4, winsOf a p = [] ∧ callsOf n p = []
    · rw [if_pos ((post_sum ha hn).2 hz)]
      exact ⟨_, rfl⟩
    · rw [if_neg (fun h => hz ((post_sum ha hn).1 h))]
      have hf := hf (hneg.1 hz)
      refine bind_total (pyAssert_total (by simpa using hf.1)) (fun _ _ => bind_total (fits_x2 hf s) (fun x2 _ => ?_))
      rw [seatsAfter_eq hq]
      exact postSeats_total v s enc o e x2 ha hn hc _ (turnOrder_lt q) b

/-! ### all half-turns -/

theorem foldlM_total {α β : Type} {f : β → α → Except PyErr β} : ∀ (l : List α) (b : β),
    (∀ a ∈ l, ∀ b, ∃ b', f b a = .ok b') → ∃ b', l.foldlM f b = .ok b'
  | [], b, _ => ⟨b, rfl⟩
  | a :: l, b, h => by
    rw [List.foldlM_cons]
    exact bind_total (h a (by simp) b) (fun b' _ => foldlM_total l b' (fun a ha => h a (by simp [ha])))

theorem foldlM_each {α β : Type} {f : β → α → Except PyErr β} : ∀ (l : List α) (b b' : β), l.foldlM f b = .ok b' →
    ∀ a ∈ l, ∃ b b', f b a = .ok b'
  | [], _, _, _, a, ha => by simp at ha
  | x :: l, b, b', h, a, ha => by
    rw [List.foldlM_cons, bind_ok] at h
    obtain ⟨b1, h1, h2⟩ := h
    rcases List.mem_cons.1 ha with rfl | ha
    · exact ⟨b, b1, h1⟩
    · exact foldlM_each l b1 b' h2 a ha

theorem sum_map_nonneg {l : List Int} (h : ∀ x ∈ l, 0 ≤ x) : 0 ≤ l.sum := by
  induction l with
  | nil => simp
  | cons x l ih =>
    have := h x (by simp)
    have := ih (fun x hx => h x (by simp [hx]))
    simp only [List.sum_cons]
    omega

theorem sum_pos_of_mem {l : List Int} (h : ∀ x ∈ l, 0 ≤ x) {k : Nat} (hk : l[k]? = some 1) : 1 ≤ l.sum := by
  induction l generalizing k with
  | nil => simp at hk
  | cons x l ih =>
    have hx := h x (by simp)
    have hl := sum_map_nonneg (l := l) (fun x hx => h x (by simp [hx]))
    simp only [List.sum_cons]
    cases k with
    | zero =>
      simp at hk
      omega
    | succ k =>
      have := ih (fun x hx => h x (by simp [hx])) (k := k) (by simpa using hk)
      omega

theorem allows_two {n : Nat} {m : List Int} {S : Nat → Prop} (h : Allows n m S) (h0 : S 0) {k : Nat} (hk : S k) (hk0 : k ≠ 0) :
    2 ≤ m.sum := by
  have hnn : ∀ x ∈ m, 0 ≤ x := by
    intro x hx
    obtain ⟨i, hi, rfl⟩ := List.mem_iff_getElem.1 hx
    by_cases hs : S i
    · have := (h.2.1 i hs).2
      rw [List.getElem?_eq_getElem hi, Option.some.injEq] at this
      omega
    · have := h.2.2 i (by rw [← h.1]; exact hi) hs
      rw [List.getElem?_eq_getElem hi, Option.some.injEq] at this
      omega
  have e0 := (h.2.1 0 h0).2
  have ek := (h.2.1 k hk).2
  cases m with
  | nil => simp at e0
  | cons x m =>
    obtain ⟨k, rfl⟩ := Nat.exists_eq_succ_of_ne_zero hk0
    simp only [List.getElem?_cons_zero, Option.some.injEq] at e0
    have := sum_pos_of_mem (l := m) (fun x hx => hnn x (by simp [hx])) (k := k) (by simpa using ek)
    simp only [List.sum_cons]
    omega

theorem twoAllowed_of_rows {rows : List Row} (h : ∀ r ∈ rows, 2 ≤ r.mask.sum) : twoAllowed (ofRows rows).mask = true := by
  simp only [twoAllowed, List.all_eq_true, ofRows, List.mem_map, decide_eq_true_eq]
  rintro m ⟨r, hr, rfl⟩
  exact h r hr

theorem buildDuring_iff (v : Variant) (s : RoundSt) (tokens : List Nat) (turns : List HalfTurn)
    (hk : ∀ t ∈ turns, t.isDuring = true) (hc : ∀ t ∈ turns, Codes t) (obj : HalfTurn → StateObj) (pos : HalfTurn → Nat)
    (ho : ∀ p o e a r n, obj (.during p o e a r n) = o) (hp : ∀ p o e a r n, pos (.during p o e a r n) = e) :
    (∃ b, buildDuring v s turns (padTokens tokens) = .ok b) ↔ ∀ t ∈ turns, sampled t → TurnFits (obj t) (pos t) := by
  constructor
  · rintro ⟨b, h⟩ t ht hs
    simp only [buildDuring, bind_ok] at h
    obtain ⟨b1, h1, _⟩ := h
    obtain ⟨b2, b3, h2⟩ := foldlM_each _ _ _ h1 t ht
    cases t with
    | during p o e a r n =>
      rw [ho, hp]
      exact (duringTurn_iff v s _ b2 p o e a r n (hc _ ht)).1 ⟨b3, h2⟩ hs
    | discard => simp [HalfTurn.isDuring] at hk; exact absurd (hk _ ht) (by simp)
    | post => simp [HalfTurn.isDuring] at hk; exact absurd (hk _ ht) (by simp)
  · intro h
    unfold buildDuring
    refine bind_total (foldlM_total _ _ ?_) ?_
    · intro t ht b
      cases t with
      | during p o e a r n =>
        have := h _ ht
        rw [ho, hp] at this
        exact (duringTurn_iff v s _ b p o e a r n (hc _ ht)).2 this
      | discard => exact absurd (hk _ ht) (by simp [HalfTurn.isDuring])
      | post => exact absurd (hk _ ht) (by simp [HalfTurn.isDuring])
    · intro b hb
      refine bind_total (pyAssert_total ?_) (fun _ _ => ⟨_, rfl⟩)
      obtain ⟨g, hg, rfl⟩ := fold_rows_mem (R := RowsOf v s tokens) turns (by
        intro t _ rows b' h
        cases t with
        | during => exact duringTurn_rows h
        | discard => simp at h
        | post => simp at h) [] b hb
      apply twoAllowed_of_rows
      intro r hr
      simp only [List.nil_append] at hr
      obtain ⟨grp, hgrp, hr⟩ := List.mem_flatten.1 hr
      obtain ⟨t, ht, hR⟩ := hg.mem_right hgrp
      cases t with
      | discard => exact absurd (hk _ ht) (by simp [HalfTurn.isDuring])
      | post => exact absurd (hk _ ht) (by simp [HalfTurn.isDuring])
      | during p o e a rr n =>
        simp only [RowsOf] at hR
        split at hR
        · subst hR; simp at hr
        · rename_i hne
          obtain ⟨row, rfl, _, hm, _⟩ := hR
          simp only [List.mem_singleton] at hr
          subst hr
          by_cases ha : a = []
          · by_cases hr : rr = []
            · have hn : n ≠ [] := fun h => hne ⟨ha, hr, h⟩
              obtain ⟨d, n', rfl⟩ := List.exists_cons_of_ne_nil hn
              obtain ⟨i, hi, _⟩ := hc _ ht d (by simp)
              have hb : i ≠ 0 := by
                unfold get_during_turn_filter_idx at hi
                simp only at hi
                split at hi
                · simp only [Except.ok.injEq] at hi; omega
                · split at hi
                  · simp only [Except.ok.injEq] at hi; omega
                  · simp at hi
              exact allows_two hm (.inl rfl) (k := i) (.inr (.inr (.inr ⟨d, by simp, i, hi, rfl⟩))) hb
            · exact allows_two hm (.inl rfl) (k := 2) (.inr (.inr (.inl ⟨rfl, hr⟩))) (by omega)
          · exact allows_two hm (.inl rfl) (k := 1) (.inr (.inl ⟨rfl, ha⟩)) (by omega)

theorem buildDiscard_iff (v : Variant) (s : RoundSt) (tokens : List Nat) (turns : List HalfTurn)
    (hk : ∀ t ∈ turns, t.isDiscard = true) (hc : ∀ t ∈ turns, Codes t) (obj : HalfTurn → StateObj) (pos : HalfTurn → Nat)
    (ho : ∀ p o e t, obj (.discard p o e t) = o) (hp : ∀ p o e t, pos (.discard p o e t) = e) :
    (∃ b, buildDiscard v s turns (padTokens tokens) = .ok b) ↔
      ∀ t ∈ turns, TurnFits (obj t) (pos t) ∧ ∃ k < 37, s.hand_tensors (obj t).player k ≠ 0 := by
  constructor
  · rintro ⟨b, h⟩ t ht
    have h' := h
    simp only [buildDiscard, bind_ok] at h
    obtain ⟨b1, h1, _⟩ := h
    obtain ⟨b2, b3, h2⟩ := foldlM_each _ _ _ h1 t ht
    obtain ⟨g, hg, rfl, hone⟩ := buildDiscard_rows h'
    cases t with
    | discard p o e t =>
      rw [ho, hp]
      refine ⟨(discardTurn_iff v s _ b2 p o e t (hc _ ht)).1 ⟨b3, h2⟩, ?_⟩
      obtain ⟨grp, hgrp, row, rfl, _, hm, _⟩ := hg.mem_left ht
      have := List.all_eq_true.1 hone row.mask (List.mem_map.2 ⟨row, List.mem_flatten.2 ⟨_, hgrp, by simp⟩, rfl⟩)
      rw [hm] at this
      obtain ⟨x, hx, hx0⟩ := List.any_eq_true.1 this
      obtain ⟨k, hk, rfl⟩ := List.mem_map.1 hx
      refine ⟨k, by simpa using hk, ?_⟩
      intro hz
      rw [hz] at hx0
      exact absurd hx0 (by decide)
    | during => exact absurd (hk _ ht) (by simp [HalfTurn.isDiscard])
    | post => exact absurd (hk _ ht) (by simp [HalfTurn.isDiscard])
  · intro h
    unfold buildDiscard
    refine bind_total (foldlM_total _ _ ?_) ?_
    · intro t ht b
      cases t with
      | discard p o e t =>
        have := (h _ ht).1
        rw [ho, hp] at this
        exact (discardTurn_iff v s _ b p o e t (hc _ ht)).2 this
      | during => exact absurd (hk _ ht) (by simp [HalfTurn.isDiscard])
      | post => exact absurd (hk _ ht) (by simp [HalfTurn.isDiscard])
    · intro b hb
      refine bind_total (pyAssert_total ?_) (fun _ _ => ⟨_, rfl⟩)
      obtain ⟨g, hg, rfl⟩ := fold_rows_mem (R := RowsOf v s tokens) turns (by
        intro t _ rows b' h
        cases t with
        | during => simp at h
        | discard => exact discardTurn_rows h
        | post => simp at h) [] b hb
      simp only [oneAllowed, List.all_eq_true, ofRows, List.nil_append]
      rintro m hm
      obtain ⟨r, hr, rfl⟩ := List.mem_map.1 hm
      obtain ⟨grp, hgrp, hr⟩ := List.mem_flatten.1 hr
      obtain ⟨t, ht, hR⟩ := hg.mem_right hgrp
      cases t with
      | during => exact absurd (hk _ ht) (by simp [HalfTurn.isDiscard])
      | post => exact absurd (hk _ ht) (by simp [HalfTurn.isDiscard])
      | discard p o e t =>
        obtain ⟨row, rfl, _, hm, _⟩ := hR
        simp only [List.mem_singleton] at hr
        subst hr
        obtain ⟨k, hk37, hne⟩ := (h _ ht).2
        rw [ho] at hne
        rw [hm, List.any_eq_true]
        refine ⟨_, List.mem_map.2 ⟨k, by simpa using hk37, rfl⟩, ?_⟩
        simp only [bne_iff_ne, ne_eq]
        omega

theorem upTo_subset (f : Nat → Bool) (l : List Nat) : ∀ p ∈ upTo f l, p ∈ l := by
  induction l with
  | nil => simp [upTo]
  | cons x l ih =>
    intro p hp
    unfold upTo at hp
    split at hp
    · simp at hp; simp [hp]
    · rcases List.mem_cons.1 hp with rfl | hp
      · simp
      · simp [ih p hp]

theorem buildPost_iff (v : Variant) (s : RoundSt) (tokens : List Nat) (turns : List HalfTurn)
    (hk : ∀ t ∈ turns, t.isPost = true) (hf : ∀ t ∈ turns, FourLists t) (hc : ∀ t ∈ turns, Codes t)
    (obj : HalfTurn → StateObj) (pos : HalfTurn → Nat)
    (ho : ∀ p o e a n, obj (.post p o e a n) = o) (hp : ∀ p o e a n, pos (.post p o e a n) = e) :
    (∃ b, buildPost v s turns (padTokens tokens) = .ok b) ↔ ∀ t ∈ turns, sampled t → TurnFits (obj t) (pos t) := by
  constructor
  · rintro ⟨b, h⟩ t ht hs
    simp only [buildPost, bind_ok] at h
    obtain ⟨b1, h1, _⟩ := h
    obtain ⟨b2, b3, h2⟩ := foldlM_each _ _ _ h1 t ht
    cases t with
    | post p o e a n =>
      rw [ho, hp]
      exact (postTurn_iff v s _ b2 p o e a n (hf _ ht) (hc _ ht)).1 ⟨b3, h2⟩ hs
    | discard => exact absurd (hk _ ht) (by simp [HalfTurn.isPost])
    | during => exact absurd (hk _ ht) (by simp [HalfTurn.isPost])
  · intro h
    unfold buildPost
    refine bind_total (foldlM_total _ _ ?_) ?_
    · intro t ht b
      cases t with
      | post p o e a n =>
        have := h _ ht
        rw [ho, hp] at this
        exact (postTurn_iff v s _ b p o e a n (hf _ ht) (hc _ ht)).2 this
      | discard => exact absurd (hk _ ht) (by simp [HalfTurn.isPost])
      | during => exact absurd (hk _ ht) (by simp [HalfTurn.isPost])
    · intro b hb
      refine bind_total (pyAssert_total ?_) (fun _ _ => ⟨_, rfl⟩)
      obtain ⟨g, hg, rfl⟩ := fold_rows_mem (R := RowsOf v s tokens) turns (by
        intro t ht rows b' h
        cases t with
        | during => simp at h
        | discard => simp at h
        | post =>
          obtain ⟨h1, h2, h3⟩ := hf _ ht
          exact postTurn_rows h1 h2 h3 h) [] b hb
      apply twoAllowed_of_rows
      intro r hr
      simp only [List.nil_append] at hr
      obtain ⟨grp, hgrp, hr⟩ := List.mem_flatten.1 hr
      obtain ⟨t, ht, hR⟩ := hg.mem_right hgrp
      cases t with
      | discard => exact absurd (hk _ ht) (by simp [HalfTurn.isPost])
      | during => exact absurd (hk _ ht) (by simp [HalfTurn.isPost])
      | post q o e a n =>
        obtain ⟨h1, h2, h3⟩ := hf _ ht
        obtain ⟨p, hp, _, hm, _⟩ := (hR h2 h3 h1).mem_right hr
        have hp' := List.mem_filter.1 (upTo_subset _ _ p hp)
        have hp4 := turnOrder_lt q p hp'.1
        by_cases ha : winsOf a p = []
        · have hn : callsOf n p ≠ [] := by
            have := hp'.2
            rw [ha] at this
            simpa using this
          obtain ⟨d, n', hn'⟩ := List.exists_cons_of_ne_nil hn
          have hmem : callsOf n p ∈ n := by
            unfold callsOf
            rw [show n.getD p [] = n[p]'(by omega) by simp [List.getD, (by omega : p < n.length)]]
            exact List.getElem_mem _
          obtain ⟨i, hi, _⟩ := hc _ ht _ hmem d (by rw [hn']; simp)
          have hb : 2 ≤ i := by
            unfold get_post_turn_filter_idx at hi
            simp only at hi
            split at hi
            · split at hi <;> simp only [Except.ok.injEq] at hi <;> omega
            · split at hi
              · split at hi
                · simp only [Except.ok.injEq] at hi; omega
                · split at hi
                  · split at hi <;> simp only [Except.ok.injEq] at hi <;> omega
                  · simp at hi
              · split at hi
                · simp only [Except.ok.injEq] at hi; omega
                · simp at hi
          refine allows_two hm (.inl rfl) (k := i.toNat) (.inr (.inr ⟨d, by rw [hn']; simp, ?_⟩)) (by omega)
          unfold callAction
          rw [hi]
          congr 1
          omega
        · exact allows_two hm (.inl rfl) (k := 1) (.inr (.inl ⟨rfl, ha⟩)) (by omega)

/-- the state object of a half-turn -/
def turnObj : HalfTurn → StateObj
  | .during _ o _ _ _ _ => o
  | .discard _ o _ _ => o
  | .post _ o _ _ _ => o

/-- its position -/
def turnPos : HalfTurn → Nat
  | .during _ _ e _ _ _ => e
  | .discard _ _ e _ => e
  | .post _ _ e _ _ => e

theorem buildTensors_iff (v : Variant) (s : RoundSt) (turns : List HalfTurn) (tokens : List Nat)
    (hf : ∀ t ∈ turns, FourLists t) (hc : ∀ t ∈ turns, Codes t) :
    (∃ b, buildTensors v s turns tokens = .ok b) ↔
      ∀ t ∈ turns, sampled t → TurnFits (turnObj t) (turnPos t) ∧
        (t.isDiscard = true → ∃ k < 37, s.hand_tensors (turnObj t).player k ≠ 0) := by
  have sub : ∀ (f : HalfTurn → Bool) t, t ∈ turns.filter f → t ∈ turns ∧ f t = true := fun f t h => List.mem_filter.1 h
  have i1 := buildDuring_iff v s tokens (turns.filter HalfTurn.isDuring) (fun t h => (sub _ t h).2)
    (fun t h => hc t (sub _ t h).1) turnObj turnPos (fun _ _ _ _ _ _ => rfl) (fun _ _ _ _ _ _ => rfl)
  have i2 := buildDiscard_iff v s tokens (turns.filter HalfTurn.isDiscard) (fun t h => (sub _ t h).2)
    (fun t h => hc t (sub _ t h).1) turnObj turnPos (fun _ _ _ _ => rfl) (fun _ _ _ _ => rfl)
  have i3 := buildPost_iff v s tokens (turns.filter HalfTurn.isPost) (fun t h => (sub _ t h).2)
    (fun t h => hf t (sub _ t h).1)
    (fun t h => hc t (sub _ t h).1) turnObj turnPos (fun _ _ _ _ _ => rfl) (fun _ _ _ _ _ => rfl)
  constructor
  · rintro ⟨b, h⟩ t ht hs
    simp only [buildTensors, bind_ok] at h
    obtain ⟨d, h1, c, h2, p, h3, _⟩ := h
    cases t with
    | during => exact ⟨i1.1 ⟨d, h1⟩ _ (List.mem_filter.2 ⟨ht, rfl⟩) hs, by simp [HalfTurn.isDiscard]⟩
    | discard =>
      obtain ⟨h4, h5⟩ := i2.1 ⟨c, h2⟩ _ (List.mem_filter.2 ⟨ht, rfl⟩)
      exact ⟨h4, fun _ => h5⟩
    | post => exact ⟨i3.1 ⟨p, h3⟩ _ (List.mem_filter.2 ⟨ht, rfl⟩) hs, by simp [HalfTurn.isDiscard]⟩
  · intro h
    unfold buildTensors
    refine bind_total (i1.2 fun t ht hs => (h t (sub _ t ht).1 hs).1) (fun _ _ => ?_)
    refine bind_total (i2.2 fun t ht => ?_) (fun _ _ => ?_)
    · obtain ⟨ht, hk⟩ := sub _ t ht
      have hs : sampled t := by cases t <;> first | trivial | simp [HalfTurn.isDiscard] at hk
      exact ⟨(h t ht hs).1, (h t ht hs).2 hk⟩
    · exact bind_total (i3.2 fun t ht hs => (h t (sub _ t ht).1 hs).1) (fun _ _ => ⟨_, rfl⟩)

end MJ
