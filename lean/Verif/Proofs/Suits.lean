import Verif.Proofs.SuitOffers
import Verif.Props.RoundTiles
/-!
A round and the same round with the suits exchanged.
-/
namespace MJ
open Code Spec Spec.Suits

/-! ### tables -/

theorem mem_slots {σ : Suits} (hσ : σ.Proper) {l : List Nat} {k : Nat} : σ.slot k ∈ l.map σ.slot ↔ k ∈ l := by
  rw [List.mem_map]
  exact ⟨fun ⟨x, h, e⟩ => (slot_inj hσ).1 e ▸ h, fun h => ⟨k, h, rfl⟩⟩

theorem mem_tiles {σ : Suits} (hσ : σ.Proper) {l : List Nat} {t : Nat} : σ.tile t ∈ l.map σ.tile ↔ t ∈ l := by
  rw [List.mem_map]
  exact ⟨fun ⟨x, h, e⟩ => (tile_inj hσ).1 e ▸ h, fun h => ⟨t, h, rfl⟩⟩

theorem slotsMoved_addAt {σ : Suits} (hσ : σ.Proper) {f f' : Nat → Int} (h : SlotsMoved σ f f') {l l' : List Nat}
    (hl : l' = l.map σ.slot) (d : Int) : SlotsMoved σ (addAt f l d) (addAt f' l' d) := by
  intro k
  subst hl
  simp only [addAt, mem_slots hσ, h k]

/-- tables of the four players -/
def RowsSlots (σ : Suits) (f f' : Nat → Nat → Int) : Prop := ∀ p, SlotsMoved σ (f p) (f' p)

theorem RowsSlots.set {σ : Suits} {f f' : Nat → Nat → Int} (h : RowsSlots σ f f') (q : Nat) {g g' : Nat → Int}
    (hg : SlotsMoved σ g g') : RowsSlots σ (setAt f q g) (setAt f' q g') := by
  intro p
  simp only [setAt]
  split
  · exact hg
  · exact h p

theorem RowsSlots.addRow {σ : Suits} (hσ : σ.Proper) {f f' : Nat → Nat → Int} (h : RowsSlots σ f f') (q : Nat) {l l' : List Nat}
    (hl : l' = l.map σ.slot) (d : Int) : RowsSlots σ (addRow f q l d) (addRow f' q l' d) :=
  h.set q (slotsMoved_addAt hσ (h q) hl d)

/-- tables with one entry per tile -/
def RowsTiles (σ : Suits) (f f' : Nat → Nat → Int) : Prop := ∀ p t, f' p (σ.tile t) = f p t

theorem RowsTiles.set {σ : Suits} (hσ : σ.Proper) {f f' : Nat → Nat → Int} (h : RowsTiles σ f f') (q t : Nat) (v : Int) :
    RowsTiles σ (setAt f q (setAt (f q) t v)) (setAt f' q (setAt (f' q) (σ.tile t) v)) := by
  intro p x
  by_cases e : p = q
  · subst e
    simp only [setAt, if_true, tile_inj hσ, h p x]
  · simp only [setAt, if_neg e, h p x]

theorem cnt_suits {σ : Suits} (hσ : σ.Proper) : ∀ {l : List Nat}, (∀ t ∈ l, t < 136) → ∀ k, cnt (l.map σ.tile) (σ.slot k) = cnt l k
  | [], _, _ => rfl
  | t :: l, h, k => by
    rw [List.map_cons, cnt_cons, cnt_cons, cnt_suits hσ (fun x hx => h x (by simp [hx])) k, tile2idx_tile hσ (h t (by simp))]
    simp only [mem_slots hσ]

theorem countTiles_suits {σ : Suits} (hσ : σ.Proper) {l : List Nat} (hl : ∀ t ∈ l, t < 136) {f f' : Nat → Int}
    (h : SlotsMoved σ f f') (d : Int) : SlotsMoved σ (countTiles l f d) (countTiles (l.map σ.tile) f' d) := by
  intro k
  rw [countTiles_eq, countTiles_eq, cnt_suits hσ hl, h k]

theorem seeExposed_suits {σ : Suits} (hσ : σ.Proper) {l : List Nat} (hl : ∀ t ∈ l, t < 136) {f f' : Nat → Int}
    (h : SlotsMoved σ f f') : SlotsMoved σ (seeExposed l f) (seeExposed (l.map σ.tile) f') := by
  intro k
  rw [seeExposed_eq, seeExposed_eq, cnt_suits hσ hl, h k]

theorem remaining_suits {σ : Suits} (hσ : σ.Proper) : SlotsMoved σ remainingTiles remainingTiles := by
  intro k
  simp only [remainingTiles, slot_lt34 hσ]

/-! ### decisions of the own turn -/

/-- The closed kans are offered in the order of their kinds, so their order changes.  The added kans are looked up among the
characters whatever their suit; nothing is said about them without the condition `Q`. -/
def OwnSuits (Q : Prop) (σ : Suits) (n n' : List NakiDecision) : Prop :=
  ∃ A K A' K', n = A ++ K ∧ n' = A' ++ K' ∧ A'.Perm (A.map σ.call) ∧ (A.map (·.naki.convenient_naki_code)).Nodup ∧
    (∀ d ∈ A, ∃ k < 34, d.naki = Naki.from_ankan_info k) ∧
    (Q → K' = K.map σ.call ∧ ∀ d ∈ K, ∃ k < 34, d.naki = Naki.raw (kakanInfo k 0)) ∧ (A ++ K).countP (·.executed) ≤ 1

/-- the decision with code `k` marked -/
def marked (k : Nat) (d : NakiDecision) : NakiDecision :=
  if d.naki.convenient_naki_code = k then { d with executed := true } else d

theorem marked_naki (k : Nat) (d : NakiDecision) : (marked k d).naki = d.naki := by
  unfold marked; split <;> rfl

theorem marked_suits {σ : Suits} (hσ : σ.Proper) (k : Nat) (d : NakiDecision) : marked (σ.code k) (σ.call d) = σ.call (marked k d) := by
  unfold marked
  simp only [Suits.call, naki, code_inj hσ]
  split <;> rfl

theorem marked_other {k : Nat} : ∀ {l : List NakiDecision}, k ∉ l.map (·.naki.convenient_naki_code) → l.map (marked k) = l
  | [], _ => rfl
  | d :: l, h => by
    simp only [List.map_cons, List.mem_cons, not_or] at h
    rw [List.map_cons, marked_other h.2, marked, if_neg (fun e => h.1 e.symm)]

theorem markNaki_nodup {k : Nat} : ∀ {l : List NakiDecision}, (l.map (·.naki.convenient_naki_code)).Nodup → markNaki k l = l.map (marked k)
  | [], _ => rfl
  | d :: l, h => by
    simp only [List.map_cons, List.nodup_cons] at h
    simp only [markNaki, List.map_cons]
    split
    · next e =>
      subst e
      rw [marked_other h.1, marked, if_pos rfl]
    · next e =>
      rw [markNaki_nodup h.2, marked, if_neg e]

theorem markNaki_append {k : Nat} : ∀ {l l' : List NakiDecision}, markNaki k (l ++ l') =
    if k ∈ l.map (·.naki.convenient_naki_code) then markNaki k l ++ l' else l ++ markNaki k l'
  | [], l' => by simp
  | d :: l, l' => by
    simp only [List.cons_append, markNaki, List.map_cons, List.mem_cons]
    by_cases e : d.naki.convenient_naki_code = k
    · rw [if_pos e, if_pos (.inl e.symm), if_pos e, List.cons_append]
    · rw [if_neg e, if_neg e, markNaki_append]
      by_cases m : k ∈ l.map (·.naki.convenient_naki_code)
      · rw [if_pos m, if_pos (.inr m), List.cons_append]
      · rw [if_neg m, if_neg (fun h => h.elim (fun x => e x.symm) m)]

theorem codes_suits {σ : Suits} {A A' : List NakiDecision} (h : A'.Perm (A.map σ.call)) :
    (A'.map (·.naki.convenient_naki_code)).Perm ((A.map (·.naki.convenient_naki_code)).map σ.code) := by
  have := h.map (·.naki.convenient_naki_code)
  rw [List.map_map] at this
  rw [List.map_map]
  exact this

theorem marked_count {k : Nat} : ∀ {l : List NakiDecision}, (∀ d ∈ l, d.executed = false) → (markNaki k l).countP (·.executed) ≤ 1
  | [], _ => by simp [markNaki]
  | d :: l, h => by
    have h0 : l.countP (·.executed) = 0 := by
      rw [List.countP_eq_zero]
      intro x hx
      simp [h x (by simp [hx])]
    unfold markNaki
    split
    · rw [List.countP_cons, h0]; split <;> omega
    · rw [List.countP_cons]
      have := marked_count (k := k) (l := l) (fun x hx => h x (by simp [hx]))
      rw [h d (by simp)]
      simpa using this

theorem mark_call {σ : Suits} (hσ : σ.Proper) (k : Nat) : ∀ l : List NakiDecision,
    markNaki (σ.code k) (l.map σ.call) = (markNaki k l).map σ.call
  | [] => rfl
  | d :: l => by
    simp only [List.map_cons, markNaki, Suits.call, naki, code_inj hσ]
    split
    · rfl
    · rw [List.map_cons, ← mark_call hσ k l]; rfl

theorem marked_from {k : Nat} : ∀ {l : List NakiDecision}, ∀ d ∈ markNaki k l, ∃ x ∈ l, d.naki = x.naki
  | [], d, h => by simp [markNaki] at h
  | x :: l, d, h => by
    unfold markNaki at h
    split at h
    · rcases List.mem_cons.1 h with rfl | h
      · exact ⟨x, by simp, rfl⟩
      · exact ⟨d, by simp [h], rfl⟩
    · rcases List.mem_cons.1 h with rfl | h
      · exact ⟨d, by simp, rfl⟩
      · obtain ⟨y, hy, e⟩ := marked_from d h
        exact ⟨y, by simp [hy], e⟩

theorem OwnSuits.mark {Q : Prop} {σ : Suits} (hσ : σ.Proper) {n n' : List NakiDecision} (h : OwnSuits Q σ n n')
    (hf : ∀ d ∈ n, d.executed = false) (k : Nat) : OwnSuits Q σ (markNaki k n) (markNaki (σ.code k) n') := by
  obtain ⟨A, K, A', K', rfl, rfl, h1, h2, h3, h4, h5⟩ := h
  have hc := codes_suits h1
  have hmem : σ.code k ∈ A'.map (·.naki.convenient_naki_code) ↔ k ∈ A.map (·.naki.convenient_naki_code) := by
    rw [hc.mem_iff, List.mem_map]
    exact ⟨fun ⟨x, m, e⟩ => (code_inj hσ).1 e ▸ m, fun m => ⟨k, m, rfl⟩⟩
  have hnd : (A'.map (·.naki.convenient_naki_code)).Nodup := by
    rw [hc.nodup_iff]
    exact List.Pairwise.map _ (fun a b hab e => hab ((code_inj hσ).1 e)) h2
  have hcount := marked_count (k := k) hf
  rw [markNaki_append] at hcount
  rw [markNaki_append, markNaki_append]
  by_cases hk : k ∈ A.map (·.naki.convenient_naki_code)
  · rw [if_pos hk] at hcount
    rw [if_pos hk, if_pos (hmem.2 hk)]
    refine ⟨_, _, _, _, rfl, rfl, ?_, ?_, ?_, h4, hcount⟩
    · rw [markNaki_nodup h2, markNaki_nodup hnd]
      refine (h1.map (marked (σ.code k))).trans ?_
      rw [List.map_map, List.map_map]
      exact List.Perm.of_eq (List.map_congr_left (fun d _ => marked_suits hσ k d))
    · rw [markNaki_nodup h2, List.map_map]
      have : ((fun d : NakiDecision => d.naki.convenient_naki_code) ∘ marked k) = fun d => d.naki.convenient_naki_code := by
        funext d; simp only [Function.comp, marked_naki]
      rw [this]; exact h2
    · intro d hd
      obtain ⟨x, hx, e⟩ := marked_from d hd
      rw [e]
      exact h3 x hx
  · rw [if_neg hk] at hcount
    rw [if_neg hk, if_neg (fun e => hk (hmem.1 e))]
    refine ⟨_, _, _, _, rfl, rfl, h1, h2, h3, fun q => ?_, hcount⟩
    obtain ⟨rfl, h6⟩ := h4 q
    refine ⟨mark_call hσ k K, fun d hd => ?_⟩
    obtain ⟨x, hx, e⟩ := marked_from d hd
    rw [e]
    exact h6 x hx

theorem range_suits {σ : Suits} (hσ : σ.Proper) : (List.range 37).Perm ((List.range 37).map σ.slot) := by
  have hn : ((List.range 37).map σ.slot).Nodup :=
    List.pairwise_map.2 (List.nodup_range.imp_of_mem (fun _ _ hab e => hab ((slot_inj hσ).1 e)))
  refine ((List.subperm_of_subset hn ?_).perm_of_length_le (by simp)).symm
  intro x hx
  obtain ⟨y, hy, rfl⟩ := List.mem_map.1 hx
  exact List.mem_range.2 ((slot_lt37 hσ).2 (List.mem_range.1 hy))

theorem ankanInfo_inj {a b : Nat} : ankanInfo a = ankanInfo b ↔ a = b := by
  unfold ankanInfo
  rw [Nat.shiftLeft_eq, Nat.shiftLeft_eq]
  omega

theorem ankan_suits {σ : Suits} (hσ : σ.Proper) {s s' : RoundSt} {q : Nat} (h : SlotsMoved σ (s.hand_tensors q) (s'.hand_tensors q)) :
    (ankanOffers s' q).Perm ((ankanOffers s q).map σ.call) ∧ ((ankanOffers s q).map (·.naki.convenient_naki_code)).Nodup ∧
    ((∀ x < 3, s.hand_tensors q (34 + x) ≠ 4) → ∀ d ∈ ankanOffers s q, ∃ k < 34, d.naki = Naki.from_ankan_info k) ∧
    ∀ d ∈ ankanOffers s q, d.executed = false := by
  refine ⟨?_, ?_, ?_, ?_⟩
  · unfold ankanOffers
    have h1 := ((range_suits hσ).filter (fun k => s'.hand_tensors q k == 4)).map
      (fun k => (⟨q, Naki.from_ankan_info k, false⟩ : NakiDecision))
    refine h1.trans (List.Perm.of_eq ?_)
    rw [List.filter_map, List.map_map, List.map_map]
    have e : ((fun k => s'.hand_tensors q k == 4) ∘ σ.slot) = fun k => s.hand_tensors q k == 4 := by
      funext k; simp only [Function.comp, h k]
    rw [e]
    refine List.map_congr_left (fun k hk => ?_)
    have hk := List.mem_range.1 (List.mem_filter.1 hk).1
    simp only [Function.comp, Suits.call, Naki.from_ankan_info, raw_suits, ankanInfo_suits hσ hk]
  · unfold ankanOffers
    rw [List.map_map]
    refine List.Pairwise.map _ (R := (· ≠ ·)) (fun a b hab e => hab (ankanInfo_inj.1 e)) ?_
    exact List.Pairwise.filter _ List.nodup_range
  · intro hred d hd
    obtain ⟨k, hk, rfl⟩ := List.mem_map.1 hd
    obtain ⟨h1, h2⟩ := List.mem_filter.1 hk
    have h1 := List.mem_range.1 h1
    refine ⟨k, ?_, rfl⟩
    rcases Nat.lt_or_ge k 34 with h34 | h34
    · exact h34
    · refine absurd (beq_iff_eq.1 h2) ?_
      have := hred (k - 34) (by omega)
      rwa [show 34 + (k - 34) = k by omega] at this
  · intro d hd
    obtain ⟨k, hk, rfl⟩ := List.mem_map.1 hd
    rfl

theorem kakan_new {hands : Nat → Nat → Int} {q : Nat} : ∀ {ms : List Naki} {K : List NakiDecision},
    kakanOffers hands q ms = .ok K → ∀ d ∈ K, d.executed = false
  | [], K, h => by
    simp only [kakanOffers, Except.ok.injEq] at h
    subst h; simp
  | m :: ms, K, h => by
    simp only [kakanOffers] at h
    split at h
    · split at h
      · simp only [bind_ok, pure_ok, Except.ok.injEq] at h
        obtain ⟨a, rfl, b, h2, rfl⟩ := h
        intro d hd
        rcases List.mem_append.1 hd with hd | hd
        · rw [List.mem_singleton] at hd
          subst hd; rfl
        · exact kakan_new h2 d hd
      · simp [bind, Except.bind] at h
    · simp only [bind_ok, pure_ok, Except.ok.injEq] at h
      obtain ⟨a, rfl, b, h2, rfl⟩ := h
      exact kakan_new h2

theorem kakan_suits {σ : Suits} (hσ : σ.Proper) {hands hands' : Nat → Nat → Int} {q : Nat}
    (hh : ∀ t, hands' q (σ.tile t) = hands q t) : ∀ {ms : List Naki} {K K' : List NakiDecision},
    (∀ m ∈ ms, WellFormed m.naki_code) →
    (∀ m ∈ ms, is_pon m.naki_code = true → σ.Kept ((pattern_pon m.naki_code).color * 9 + (pattern_pon m.naki_code).number)) →
    kakanOffers hands q ms = .ok K → kakanOffers hands' q (ms.map σ.naki) = .ok K' →
    K' = K.map σ.call ∧ ∀ d ∈ K, ∃ k < 34, d.naki = Naki.raw (kakanInfo k 0)
  | [], K, K', _, _, h, h' => by
    simp only [List.map_nil, kakanOffers, Except.ok.injEq] at h h'
    subst h; subst h'; simp
  | m :: ms, K, K', hw, hp, h, h' => by
    have ih := fun {K K'} => kakan_suits hσ hh (ms := ms) (K := K) (K' := K') (fun x hx => hw x (by simp [hx])) (fun x hx => hp x (by simp [hx]))
    simp only [List.map_cons, kakanOffers, naki, code_is_pon, Nat.mul_comm 9] at h h'
    by_cases h0 : is_pon m.naki_code = true
    · have hch : is_chi m.naki_code = false := by
        cases hc : is_chi m.naki_code with
        | false => rfl
        | true => simp [is_pon, hc] at h0
      obtain ⟨_, _, _, _, e⟩ := pon_fields hσ hch h0 (hw m (by simp))
      have hk := pon_kind_suits hch h0 (hw m (by simp))
      have hkept := hp m (by simp) h0
      rw [e] at h'
      generalize (pattern_pon m.naki_code).color * 9 + (pattern_pon m.naki_code).number = k at *
      have hl : hands' q (σ.slot k) = hands q k := by rw [← hkept]; exact hh k
      rw [h0, hl] at h'
      rw [h0] at h
      by_cases h1 : hands q k = 1
      · simp only [h1, beq_self_eq_true, Bool.and_self, if_true, Naki.from_kakan_info, true_or, bind_ok, pure_ok, Except.ok.injEq] at h h'
        obtain ⟨a, rfl, b, h2, rfl⟩ := h
        obtain ⟨a', rfl, b', h2', rfl⟩ := h'
        obtain ⟨rfl, i2⟩ := ih h2 h2'
        refine ⟨?_, ?_⟩
        · simp only [List.map_append, List.map_cons, List.map_nil, Suits.call, raw_suits, kakanInfo_suits hσ hk]
        · intro d hd
          rcases List.mem_append.1 hd with hd | hd
          · rw [List.mem_singleton] at hd
            subst hd
            exact ⟨k, hk, rfl⟩
          · exact i2 d hd
      · have h1' : (hands q k == 1) = false := by simpa using h1
        simp only [h1', Bool.and_false, Bool.false_eq_true, if_false, bind_ok, pure_ok, Except.ok.injEq] at h h'
        obtain ⟨a, rfl, b, h2, rfl⟩ := h
        obtain ⟨a', rfl, b', h2', rfl⟩ := h'
        simpa using ih h2 h2'
    · have h0' : is_pon m.naki_code = false := by simpa using h0
      simp only [h0', Bool.false_and, Bool.false_eq_true, if_false, bind_ok, pure_ok, Except.ok.injEq] at h h'
      obtain ⟨a, rfl, b, h2, rfl⟩ := h
      obtain ⟨a', rfl, b', h2', rfl⟩ := h'
      simpa using ih h2 h2'

/-- added kans -/
theorem kakan_ex {c : Nat} (w : WellFormed c) (h : is_kakan c = true) {ex : List Nat} {acq : Option Nat}
    (he : get_exposed c = .ok (ex, acq)) : ∃ e, ex = [e] := by
  rcases wf_cases w with h1 | ⟨h1, h2⟩ | ⟨h1, h2, h3⟩ | ⟨h1, h2, h3, h4⟩ | ⟨h1, h2, h3, h4, h5⟩
  · simp [is_kakan, h1] at h
  · obtain ⟨_, hb, _⟩ := wf_pon c h1 h2 w
    have := (is_kakan_iff c).1 h
    omega
  · simp only [get_exposed, h1, h2, h3, if_true, if_false, Bool.false_eq_true, Except.ok.injEq, Prod.mk.injEq] at he
    rw [← he.1, (pattern_kakan_tiles _).1]
    exact ⟨_, rfl⟩
  · rw [h] at h3; simp at h3
  · rw [h] at h3; simp at h3

theorem isPonOf_suits {σ : Suits} (hσ : σ.Proper) {m : Naki} (w : WellFormed m.naki_code) (k : Nat) :
    isPonOf (σ.slot k) (σ.naki m) = isPonOf k m := by
  unfold isPonOf
  simp only [naki, code_is_pon]
  by_cases h : is_pon m.naki_code = true
  · have h0 : is_chi m.naki_code = false := by
      cases hc : is_chi m.naki_code with
      | false => rfl
      | true => simp [is_pon, hc] at h
    obtain ⟨_, _, _, _, e⟩ := pon_fields hσ h0 h w
    rw [e, Bool.eq_iff_iff]
    simp only [Bool.and_eq_true, beq_iff_eq, slot_inj hσ]
  · simp [h]

theorem removePon_suits {σ : Suits} (hσ : σ.Proper) (k : Nat) : ∀ {l : List Naki}, (∀ m ∈ l, WellFormed m.naki_code) →
    removePon (σ.slot k) (l.map σ.naki) = (removePon k l).map σ.naki
  | [], _ => rfl
  | m :: l, h => by
    have ih := removePon_suits hσ k (l := l) (fun x hx => h x (by simp [hx]))
    simp only [List.map_cons, removePon, isPonOf_suits hσ (h m (by simp)), ih]
    split <;> rfl

theorem removePon_mem {k : Nat} : ∀ {l : List Naki}, ∀ m ∈ removePon k l, m ∈ l
  | [], m, h => h
  | x :: l, m, h => by
    simp only [removePon] at h
    split at h
    · exact List.mem_cons_of_mem _ h
    · rcases List.mem_cons.1 h with rfl | h
      · simp
      · exact List.mem_cons_of_mem _ (removePon_mem m h)

/-! ### states -/

/-- snapshots of the same moment -/
structure ObjSuits (σ : Suits) (o o' : StateObj) : Prop where
  player : o'.player = o.player
  tsumo : o'.remaining_tsumo = o.remaining_tsumo
  sutehai : RowsSlots σ o.sutehai_tensors o'.sutehai_tensors
  double : o'.double_reaches = o.double_reaches
  reaches : o'.reaches = o.reaches
  ippatsu : o'.ippatsu = o.ippatsu
  scores : o'.scores = o.scores
  kyotaku : o'.kyotaku = o.kyotaku
  honba : o'.honba = o.honba
  dora : o'.dora = o.dora.map σ.tile
  parent : o'.parent = o.parent
  rounds : o'.rounds_remaining = o.rounds_remaining
  parent_rounds : o'.parent_rounds_remaining = o.parent_rounds_remaining

/-- the same half-turn with the suits exchanged -/
inductive TurnSuits (Q : Prop) (σ : Suits) : HalfTurn → HalfTurn → Prop
  | during {q e : Nat} {o o' : StateObj} {a : List AgariDecision} {l : List ReachDecision} {n n' : List NakiDecision} :
      ObjSuits σ o o' → OwnSuits Q σ n n' → TurnSuits Q σ (.during q o e a l n) (.during q o' e a l n')
  | discard {q e t : Nat} {o o' : StateObj} : t < 136 → ObjSuits σ o o' →
      TurnSuits Q σ (.discard q o e t) (.discard q o' e (σ.tile t))
  | post {q e : Nat} {o o' : StateObj} {a a' : List (List AgariDecision)} {n n' : List (List NakiDecision)} :
      ObjSuits σ o o' → (∀ p < 4, winsOf a' p = winsOf a p) → (∀ p < 4, callsOf n' p = (callsOf n p).map σ.call) →
      TurnSuits Q σ (.post q o e a n) (.post q o' e a' n')

/-- no kan of the own turn is executed yet -/
def FreshTurn : HalfTurn → Prop
  | .during _ _ _ _ _ n => ∀ d ∈ n, d.executed = false
  | _ => True

theorem markNaki_suits {σ : Suits} (hσ : σ.Proper) (k : Nat) : ∀ (l : List NakiDecision),
    markNaki (σ.code k) (l.map σ.call) = (markNaki k l).map σ.call
  | [] => rfl
  | d :: l => by
    have ih := markNaki_suits hσ k l
    have : (σ.call d).naki.convenient_naki_code = σ.code d.naki.convenient_naki_code := rfl
    simp only [List.map_cons, markNaki, this, code_inj hσ, ih]
    split <;> rfl

theorem TurnSuits.mark {Q : Prop} {σ : Suits} (hσ : σ.Proper) {t t' : HalfTurn} (h : TurnSuits Q σ t t') (hf : FreshTurn t) (k : Nat) :
    TurnSuits Q σ (t.mark k) (t'.mark (σ.code k)) := by
  cases h with
  | during ho hn => exact .during ho (hn.mark hσ hf k)
  | discard ht ho => exact .discard ht ho
  | post ho ha hn =>
    refine .post ho ha ?_
    intro p hp
    rw [callsOf_map, callsOf_map, hn p hp, markNaki_suits hσ]

theorem TurnSuits.markReach {Q : Prop} {σ : Suits} {t t' : HalfTurn} (h : TurnSuits Q σ t t') :
    TurnSuits Q σ t.markReach t'.markReach := by
  cases h with
  | during ho hn => exact .during ho hn
  | discard ht ho => exact .discard ht ho
  | post ho ha hn => exact .post ho ha hn

theorem FreshTurn.markReach {t : HalfTurn} (h : FreshTurn t) : FreshTurn t.markReach := by
  cases t <;> exact h

/-- the same round with the suits exchanged -/
structure StSuits (Q : Prop) (σ : Suits) (s s' : RoundSt) : Prop where
  hands : RowsTiles σ s.hands s'.hands
  hand_tensors : RowsSlots σ s.hand_tensors s'.hand_tensors
  full : RowsSlots σ s.hand_tensors_full s'.hand_tensors_full
  pov : RowsSlots σ s.remaining_tiles_pov s'.remaining_tiles_pov
  tsumo : s'.remaining_tsumo = s.remaining_tsumo
  sutehai : RowsSlots σ s.sutehai_tensors s'.sutehai_tensors
  doras : s'.doras = s.doras.map σ.tile
  scores : s'.scores = s.scores
  kyotaku : s'.kyotaku = s.kyotaku
  double : s'.double_reaches = s.double_reaches
  reaches : s'.reaches = s.reaches
  ippatsu : s'.ippatsu = s.ippatsu
  melds : ∀ p, s'.melds p = (s.melds p).map σ.naki
  wf : ∀ p, ∀ m ∈ s.melds p, WellFormed m.naki_code
  pons : Q → ∀ p, ∀ m ∈ s.melds p, is_pon m.naki_code = true →
    σ.Kept ((pattern_pon m.naki_code).color * 9 + (pattern_pon m.naki_code).number)
  menzen : s'.is_menzen = s.is_menzen
  curr : s'.curr_halfturn = s.curr_halfturn
  cycles : s'.cycles = s.cycles
  acquired : s'.acquired = s.acquired.map σ.tile
  obj : (s.stateObj = none ∧ s'.stateObj = none) ∨ ∃ o o', s.stateObj = some o ∧ s'.stateObj = some o' ∧ ObjSuits σ o o'
  tokens : AllPairs (TokenSuits σ) s.encoding_tokens s'.encoding_tokens
  turns : AllPairs (TurnSuits Q σ) s.halfturns s'.halfturns
  fresh : ∀ i t, s.curr_halfturn = some i → s.halfturns[i]? = some t → FreshTurn t

/-- the settings of the round with the suits exchanged -/
structure CfgSuits (σ : Suits) (c c' : RoundCfg) : Prop where
  estimate : EvalSuits σ c.estimate c'.estimate
  shanten : DistanceSuits σ c.shanten c'.shanten
  honba : c'.honba = c.honba
  parent : c'.parent = c.parent
  rounds : c'.rounds_remaining = c.rounds_remaining
  parent_rounds : c'.parent_rounds_remaining = c.parent_rounds_remaining
  player_wind : c'.player_wind = c.player_wind
  round_wind : c'.round_wind = c.round_wind

theorem codes_map (σ : Suits) (l : List Naki) : (l.map σ.naki).map (·.naki_code) = (l.map (·.naki_code)).map σ.code := by
  rw [List.map_map, List.map_map]; rfl

theorem StSuits.winArgs {Q : Prop} {σ : Suits} {c c' : RoundCfg} (hc : CfgSuits σ c c') {s s' : RoundSt} (h : StSuits Q σ s s') (b : Bool) :
    ArgsSuits σ (winArgs c s b) (winArgs c' s' b) where
  naki := fun p => by simp only [MJ.winArgs, h.melds p, codes_map]
  wf := fun p x hx => by
    obtain ⟨m, hm, rfl⟩ := List.mem_map.1 hx
    exact h.wf p m hm
  doras := h.doras
  reaches := h.reaches
  ippatsu := h.ippatsu
  double := h.double
  haitei := rfl
  player_wind := hc.player_wind
  round_wind := hc.round_wind
  kyotaku := h.kyotaku
  honba := hc.honba

theorem StSuits.length {Q : Prop} {σ : Suits} {s s' : RoundSt} (h : StSuits Q σ s s') : s'.halfturns.length = s.halfturns.length :=
  h.turns.length.symm

theorem StSuits.tokens_length {Q : Prop} {σ : Suits} {s s' : RoundSt} (h : StSuits Q σ s s') :
    s'.encoding_tokens.length = s.encoding_tokens.length := h.tokens.length.symm

theorem StSuits.mkObj {Q : Prop} {σ : Suits} {c c' : RoundCfg} (hc : CfgSuits σ c c') {s s' : RoundSt} (h : StSuits Q σ s s') (q : Nat) :
    ObjSuits σ (mkStateObj c s q) (mkStateObj c' s' q) :=
  ⟨rfl, h.tsumo, h.sutehai, h.double, h.reaches, h.ippatsu, h.scores, h.kyotaku, hc.honba, h.doras, hc.parent,
    hc.rounds, hc.parent_rounds⟩

theorem ObjSuits.tsumo_of {σ : Suits} {o o' : StateObj} (h : ObjSuits σ o o') (n : Int) :
    ObjSuits σ { o with remaining_tsumo := n } { o' with remaining_tsumo := n } :=
  ⟨h.player, rfl, h.sutehai, h.double, h.reaches, h.ippatsu, h.scores, h.kyotaku, h.honba, h.dora, h.parent, h.rounds, h.parent_rounds⟩

theorem StSuits.drawTile {Q : Prop} {σ : Suits} (hσ : σ.Proper) {s s' : RoundSt} (h : StSuits Q σ s s') (q : Nat) {t : Nat}
    (ht : t < 136) : StSuits Q σ (drawTile s q t) (drawTile s' q (σ.tile t)) where
  hands := h.hands.set hσ q t 1
  hand_tensors := h.hand_tensors.addRow hσ q (tile2idx_tile hσ ht) _
  full := h.full.addRow hσ q (tile2idx_tile hσ ht) _
  pov := h.pov.addRow hσ q (tile2idx_tile hσ ht) _
  tsumo := by simp only [MJ.drawTile, h.tsumo]
  sutehai := h.sutehai
  doras := h.doras
  scores := h.scores
  kyotaku := h.kyotaku
  double := h.double
  reaches := h.reaches
  ippatsu := by simp only [MJ.drawTile, h.ippatsu]
  melds := h.melds
  wf := h.wf
  pons := h.pons
  menzen := h.menzen
  curr := h.curr
  cycles := by simp only [MJ.drawTile, h.cycles]
  acquired := rfl
  obj := h.obj
  tokens := h.tokens
  turns := h.turns
  fresh := h.fresh

theorem reach_suits {Q : Prop} {σ : Suits} {c c' : RoundCfg} (hc : CfgSuits σ c c') {s s' : RoundSt} (h : StSuits Q σ s s')
    {q : Nat} {l l' : List ReachDecision} (e : reachOffers c s q = .ok l) (e' : reachOffers c' s' q = .ok l') : l' = l := by
  unfold reachOffers at e e'
  rw [h.reaches, h.menzen, hc.shanten (s.hand_tensors q) (s'.hand_tensors q) (fun k _ => h.hand_tensors q k), e] at e'
  exact (Except.ok.inj e').symm

theorem getElem?_append_len {α : Type} (l : List α) (x : α) (r : List α) : (l ++ x :: r)[l.length]? = some x := by simp

theorem StSuits.draw {Q : Prop} {σ : Suits} (hσ : σ.Proper) {c c' : RoundCfg} (hc : CfgSuits σ c c') {s s' s1 s1' : RoundSt}
    (h : StSuits Q σ s s') {q t : Nat} (hred : ∀ x < 3, s1.hand_tensors q (34 + x) ≠ 4) (d : DrawDone c s s1 q t)
    (d' : DrawDone c' s' s1' q (σ.tile t)) : StSuits Q σ s1 s1' := by
  rw [d.state_eq] at hred
  have hd := h.drawTile hσ q d.tile_lt
  have ho := hd.mkObj hc q
  have ha : d'.agari = d.agari := by
    have e1 := d.agari_eq
    have e2 := d'.agari_eq
    rw [hd.tsumo, hd.cycles, hd.menzen] at e2
    exact tsumo_suits hσ hc.estimate hd.full (hd.winArgs hc _) e1 e2
  have hre := reach_suits hc hd d.reach_eq d'.reach_eq
  obtain ⟨an1, an2, an3, an4⟩ := ankan_suits hσ (hd.hand_tensors q)
  have hown : OwnSuits Q σ (ankanOffers (MJ.drawTile s q t) q ++ d.kakan) (ankanOffers (MJ.drawTile s' q (σ.tile t)) q ++ d'.kakan) := by
    refine ⟨_, _, _, _, rfl, rfl, an1, an2, an3 hred, fun hQ => ?_, ?_⟩
    · have e' := d'.kakan_eq
      rw [h.melds q] at e'
      exact kakan_suits hσ (hd.hands q) (h.wf q) (h.pons hQ q) d.kakan_eq e'
    · have : (ankanOffers (MJ.drawTile s q t) q ++ d.kakan).countP (·.executed) = 0 := by
        rw [List.countP_eq_zero]
        intro x hx
        rcases List.mem_append.1 hx with hx | hx
        · simp [an4 x hx]
        · simp [kakan_new d.kakan_eq x hx]
      omega
  rw [d.state_eq, d'.state_eq]
  exact {
    hands := hd.hands
    hand_tensors := hd.hand_tensors
    full := hd.full
    pov := hd.pov
    tsumo := hd.tsumo
    sutehai := hd.sutehai
    doras := hd.doras
    scores := hd.scores
    kyotaku := hd.kyotaku
    double := hd.double
    reaches := hd.reaches
    ippatsu := by
      show clearIppatsu (setAt s'.ippatsu q 0) = clearIppatsu (setAt s.ippatsu q 0)
      rw [h.ippatsu]
    melds := hd.melds
    wf := hd.wf
    pons := hd.pons
    menzen := hd.menzen
    curr := congrArg some h.length
    cycles := hd.cycles
    acquired := rfl
    obj := .inr ⟨_, _, rfl, rfl, ho⟩
    tokens := hd.tokens
    turns := by
      refine h.turns.append (.cons ?_ .nil)
      rw [ha, hre, h.tokens_length]
      exact .during ho hown
    fresh := by
      intro i t ei et
      have ei : s.halfturns.length = i := by simpa using ei
      subst ei
      rw [getElem?_append_len] at et
      have et := Option.some.inj et
      subst et
      intro x hx
      rcases List.mem_append.1 hx with hx | hx
      · exact an4 x hx
      · exact kakan_new d.kakan_eq x hx }

theorem StSuits.discardTile {Q : Prop} {σ : Suits} (hσ : σ.Proper) {s s' : RoundSt} (h : StSuits Q σ s s') (q : Nat) {t : Nat}
    (ht : t < 136) : StSuits Q σ (discardTile s q t) (discardTile s' q (σ.tile t)) :=
  { h with
    hands := h.hands.set hσ q t 0
    hand_tensors := h.hand_tensors.addRow hσ q (tile2idx_tile hσ ht) _
    full := h.full.addRow hσ q (tile2idx_tile hσ ht) _
    pov := RowsSlots.addRow hσ (fun p => slotsMoved_addAt hσ (h.pov p) (tile2idx_tile hσ ht) _) q (tile2idx_tile hσ ht) _
    sutehai := h.sutehai.set q (fun k => by simp only [tile2idx_tile hσ ht, mem_slots hσ, h.sutehai q k]) }

theorem StSuits.discard {Q : Prop} {σ : Suits} (hσ : σ.Proper) {c c' : RoundCfg} (hc : CfgSuits σ c c') {s s' s1 s1' : RoundSt}
    (h : StSuits Q σ s s') {q t : Nat} (hq : q < 4) (d : DiscardDone c s s1 q t) (d' : DiscardDone c' s' s1' q (σ.tile t)) :
    StSuits Q σ s1 s1' := by
  have ht := d.tile_lt
  have hd := h.discardTile hσ q ht
  have ho : ObjSuits σ d.o d'.o := by
    rcases h.obj with ⟨e, _⟩ | ⟨o, o', e1, e2, e3⟩
    · rw [d.obj_eq] at e; simp at e
    · rw [d.obj_eq] at e1
      rw [d'.obj_eq] at e2
      rw [Option.some.inj e1, Option.some.inj e2]
      exact e3
  have hw : ∀ p < 4, winsOf (spread d'.rons) p = winsOf (spread d.rons) p := by
    have e2 := d'.rons_eq
    rw [h.tsumo, h.cycles, h.menzen] at e2
    exact ron_suits hσ hc.estimate ht hd.full (h.winArgs hc _) hd.sutehai d.rons_eq e2
  have hn : ∀ p < 4, callsOf d'.offers p = (callsOf d.offers p).map σ.call := by
    have e2 := d'.offers_eq
    rw [tile_kind ht, show ((tile2idx (σ.tile t)).length == 2) = ((tile2idx t).length == 2) by
      rw [tile2idx_tile hσ ht, List.length_map]] at e2
    exact decisionMask_suits hσ hq hd.hand_tensors (by omega) d.offers_eq e2
  have hacq : d'.a = σ.tile d.a := by
    have := h.acquired
    rw [d.acquired_eq, d'.acquired_eq] at this
    exact Option.some.inj this
  have htok : TokenSuits σ d.token d'.token := by
    have e2 := d'.token_eq
    rw [hacq, tile_kind ht, show (σ.tile d.a == σ.tile t) = (d.a == t) by
      rw [Bool.eq_iff_iff, beq_iff_eq, beq_iff_eq, tile_inj hσ]] at e2
    exact .discard d.token_eq e2
  rw [d.state_eq, d'.state_eq]
  exact { hd with
    curr := by simp only [h.length]
    acquired := rfl
    tokens := h.tokens.append (.cons htok .nil)
    turns := by
      refine h.turns.append (.cons ?_ (.cons ?_ .nil))
      · rw [h.tokens_length]; exact .discard ht ho
      · rw [h.tokens_length]; exact .post ho hw hn
    fresh := by
      intro i t ei et
      have ei : s.halfturns.length + 1 = i := by simpa using ei
      subst ei
      have et : (s.halfturns ++ [HalfTurn.discard q d.o s.encoding_tokens.length _,
        HalfTurn.post q d.o s.encoding_tokens.length (spread d.rons) d.offers])[s.halfturns.length + 1]? = some t := et
      rw [List.getElem?_append_right (by omega)] at et
      simp at et
      subst et
      trivial }

theorem gain_suits {σ : Suits} (hσ : σ.Proper) {f f' : Nat → Nat → Int} (h : RowsSlots σ f f') (q : Nat) {acq : Option Nat}
    (ha : ∀ t ∈ acq.toList, t < 136) : RowsSlots σ (gain f q acq) (gain f' q (acq.map σ.tile)) := by
  cases acq with
  | none => exact h
  | some a => exact h.addRow hσ q (tile2idx_tile hσ (ha a (by simp))) _

theorem StSuits.call {Q : Prop} {σ : Suits} (hσ : σ.Proper) {c c' : RoundCfg} (hc : CfgSuits σ c c') {s s' s1 s1' : RoundSt}
    (h : StSuits Q σ s s') {q code : Nat} (w : WellFormed code) (hQ : Q → is_pon code = true → σ.Kept ((pattern_pon code).color * 9 + (pattern_pon code).number)) (d : NakiDone c s s1 code q)
    (d' : NakiDone c' s' s1' (σ.code code) q) : StSuits Q σ s1 s1' := by
  have hq := d.player_lt
  have hn : d'.naki = σ.naki d.naki := by
    have e1 := d'.code_eq
    have e2 := d'.clean_eq
    rw [clean_code hσ w d.clean_eq] at e2
    have e3 := Except.ok.inj e2
    have e4 := d.code_eq
    cases hx : d.naki; cases hy : d'.naki
    rw [hx] at e3 e4
    rw [hy] at e1 e3
    simp only at e1 e3 e4
    simp only [naki, Naki.mk.injEq, e4, e1]
    exact ⟨trivial, e3.symm⟩
  have hx : d'.ex = d.ex.map σ.tile ∧ d'.acq = d.acq.map σ.tile := by
    have := d'.exposed_eq
    rw [exposed_code hσ w d.exposed_eq] at this
    simp only [Except.ok.injEq, Prod.mk.injEq] at this
    exact ⟨this.1.symm, this.2.symm⟩
  have hi : d'.i = d.i := by
    have := d'.curr_eq
    rw [h.curr, d.curr_eq] at this
    simpa using this.symm
  obtain ⟨_, _, x3, x4⟩ := expose_ok d.expose_eq
  obtain ⟨_, _, y3, y4⟩ := expose_ok d'.expose_eq
  have ho : ObjSuits σ (nakiObj c s code q) (nakiObj c' s' (σ.code code) q) := by
    have := (h.mkObj hc q).tsumo_of (if !is_chi code && !is_pon code then s.remaining_tsumo - 1 else s.remaining_tsumo)
    unfold nakiObj
    rw [h.tsumo, code_is_chi, code_is_pon]
    exact this
  have hwf : ∀ m ∈ s.melds q ++ [d.naki], WellFormed m.naki_code := by
    intro m hm
    rcases List.mem_append.1 hm with hm | hm
    · exact h.wf q m hm
    · rw [List.mem_singleton] at hm
      rw [hm, d.code_eq]; exact w
  have hap : s'.melds q ++ [d'.naki] = (s.melds q ++ [d.naki]).map σ.naki := by
    rw [h.melds q, hn, List.map_append]; rfl
  have hrem : is_kakan code = true → removePon (d'.ex.headD 0 / 4) (s'.melds q ++ [d'.naki]) =
      (removePon (d.ex.headD 0 / 4) (s.melds q ++ [d.naki])).map σ.naki := by
    intro hk
    obtain ⟨e, he⟩ := kakan_ex w hk d.exposed_eq
    have hl : e < 136 := d.ex_lt e (by rw [he]; simp)
    rw [hap, hx.1, he]
    simp only [List.map_cons, List.map_nil, List.headD_cons, tile_kind hl]
    exact removePon_suits hσ _ hwf
  have hmelds : ∀ p, setAt s'.melds q (if is_kakan (σ.code code) then removePon (d'.ex.headD 0 / 4) (s'.melds q ++ [d'.naki])
        else s'.melds q ++ [d'.naki]) p =
      (setAt s.melds q (if is_kakan code then removePon (d.ex.headD 0 / 4) (s.melds q ++ [d.naki]) else s.melds q ++ [d.naki]) p).map
        σ.naki := by
    intro p
    rw [code_is_kakan]
    by_cases e : p = q
    · subst e
      simp only [setAt, if_true]
      split
      · next hk => exact hrem hk
      · exact hap
    · simp only [setAt, if_neg e, h.melds p]
  have hsub : ∀ p, ∀ m ∈ setAt s.melds q (if is_kakan code then removePon (d.ex.headD 0 / 4) (s.melds q ++ [d.naki])
      else s.melds q ++ [d.naki]) p, m ∈ s.melds p ∨ m = d.naki := by
    intro p m hm
    by_cases e : p = q
    · subst e
      simp only [setAt, if_true] at hm
      have : m ∈ s.melds p ++ [d.naki] := by
        split at hm
        · exact removePon_mem m hm
        · exact hm
      simpa using this
    · simp only [setAt, if_neg e] at hm
      exact .inl hm
  have hwf2 : ∀ p, ∀ m ∈ setAt s.melds q (if is_kakan code then removePon (d.ex.headD 0 / 4) (s.melds q ++ [d.naki])
      else s.melds q ++ [d.naki]) p, WellFormed m.naki_code := by
    intro p m hm
    rcases hsub p m hm with hm | rfl
    · exact h.wf p m hm
    · rw [d.code_eq]; exact w
  rw [d.state_eq, d'.state_eq]
  exact {
    hands := by
      intro p t
      show d'.hands' p (σ.tile t) = d.hands' p t
      rw [x3, y3, hx.1, h.hands p t]
      simp only [mem_tiles hσ]
    hand_tensors := by
      intro p k
      show d'.ht' p (σ.slot k) = d.ht' p k
      rw [x4, y4, hx.1, h.hand_tensors p k, cnt_suits hσ d.ex_lt]
    full := by
      show RowsSlots σ (gain _ q d.acq) (gain _ q d'.acq)
      rw [hx.2]
      exact gain_suits hσ h.full q d.acq_lt
    pov := by
      intro p
      show SlotsMoved σ (if p = q then _ else _) (if p = q then _ else seeExposed d'.ex _)
      rw [hx.1]
      split
      · exact h.pov p
      · exact seeExposed_suits hσ d.ex_lt (h.pov p)
    tsumo := by
      show (if !is_chi (σ.code code) && !is_pon (σ.code code) then _ else _) = _
      rw [h.tsumo, code_is_chi, code_is_pon]
    sutehai := h.sutehai
    doras := h.doras
    scores := h.scores
    kyotaku := h.kyotaku
    double := h.double
    reaches := h.reaches
    ippatsu := by
      show clearIppatsu s'.ippatsu = clearIppatsu s.ippatsu
      rw [h.ippatsu]
    melds := hmelds
    wf := hwf2
    pons := by
      intro hq' p m hm
      rcases hsub p m hm with hm | rfl
      · exact h.pons hq' p m hm
      · rw [d.code_eq]; exact hQ hq'
    menzen := by
      show (if from_who (σ.code code) ≠ 0 then setAt s'.is_menzen q 0 else s'.is_menzen) = _
      rw [code_from_who, h.menzen]
    curr := rfl
    cycles := by
      show s'.cycles + (((q : Int) - from_who (σ.code code)) % 4).toNat +
        (if is_minkan (σ.code code) || is_ankan (σ.code code) || is_kakan (σ.code code) then 1 else 0) = _
      rw [code_from_who, code_is_minkan, code_is_ankan, code_is_kakan, h.cycles]
    acquired := by
      show (if is_minkan (σ.code code) || is_ankan (σ.code code) || is_kakan (σ.code code) then none else d'.acq) =
        Option.map σ.tile (if is_minkan code || is_ankan code || is_kakan code then none else d.acq)
      rw [code_is_minkan, code_is_ankan, code_is_kakan, hx.2]
      split <;> rfl
    obj := .inr ⟨_, _, rfl, rfl, ho⟩
    tokens := h.tokens.append (.cons (.call d.token_eq d'.token_eq) .nil)
    turns := by
      have ht' := d'.turn_eq
      rw [hi] at ht'
      have hk := (h.turns.get d.i d.turn_eq ht').mark hσ (h.fresh d.i d.t d.curr_eq d.turn_eq) d.naki.convenient_naki_code
      have hk2 : TurnSuits Q σ (d.t.mark d.naki.convenient_naki_code) (d'.t.mark d'.naki.convenient_naki_code) := by
        rw [hn]; exact hk
      show AllPairs (TurnSuits Q σ) (s.halfturns.set d.i _ ++ chankanTurn c s code q d.rons)
        (s'.halfturns.set d'.i _ ++ chankanTurn c' s' (σ.code code) q d'.rons)
      rw [hi]
      refine (h.turns.set_both d.i hk2).append ?_
      unfold chankanTurn
      rw [code_is_kakan]
      by_cases hkk : is_kakan code = true
      · rw [if_pos hkk, if_pos hkk, h.tokens_length]
        obtain ⟨e, he⟩ := kakan_ex w hkk d.exposed_eq
        have hl : e < 136 := d.ex_lt e (by rw [he]; simp)
        refine .cons (.post ho ?_ ?_) .nil
        · have e1 := d.rons_eq hkk
          have e2 := d'.rons_eq (by rw [code_is_kakan]; exact hkk)
          have hhead : d'.ex.headD 0 = σ.tile (d.ex.headD 0) := by rw [hx.1, he]; rfl
          rw [hrem hkk, hhead, hx.2] at e2
          refine ron_suits hσ hc.estimate (by rw [he]; exact hl) (gain_suits hσ h.full q d.acq_lt) ?_ h.sutehai e1 e2
          refine ⟨?_, ?_, h.doras, h.reaches, ?_, h.double, rfl, hc.player_wind, hc.round_wind, h.kyotaku, hc.honba⟩
          · intro p
            have := hmelds p
            rw [if_pos (by rw [code_is_kakan]; exact hkk), if_pos hkk, hrem hkk] at this
            show List.map _ (setAt s'.melds q _ p) = _
            rw [this, codes_map]
            rfl
          · intro p x hx
            obtain ⟨m, hm, rfl⟩ := List.mem_map.1 hx
            refine hwf2 p m ?_
            rw [if_pos hkk]
            exact hm
          · show clearIppatsu s'.ippatsu = clearIppatsu s.ippatsu
            rw [h.ippatsu]
        · intro p hp
          have : ∀ x, callsOf ((List.range 4).map (fun _ => ([] : List NakiDecision))) x = [] := by
            intro x
            simp only [callsOf, List.getD_eq_getElem?_getD, List.getElem?_map]
            cases (List.range 4)[x]? <;> rfl
          rw [this]; rfl
      · rw [if_neg hkk, if_neg hkk]
        exact .nil
    fresh := by
      intro i t ei
      simp at ei }

/-- one event and the same event with the suits exchanged -/
theorem StSuits.step {Q : Prop} {σ : Suits} (hσ : σ.Proper) {c c' : RoundCfg} (hc : CfgSuits σ c c') {s s' s1 s1' : RoundSt}
    (h : StSuits Q σ s s') {act : Act} (hw : ∀ p k, act = .call p k → WellFormed k ∧
      (Q → is_pon k = true → σ.Kept ((pattern_pon k).color * 9 + (pattern_pon k).number)))
    (hred : ∀ p, ∀ x < 3, s1.hand_tensors p (34 + x) ≠ 4) (e : Effect c s act s1)
    (e' : Effect c' s' (act.suits σ) s1') : StSuits Q σ s1 s1' := by
  cases e with
  | @dora t token ht htok =>
    cases e' with
    | dora ht' htok' =>
      exact { h with
        pov := fun p => slotsMoved_addAt hσ (h.pov p) (by rw [tile_kind ht]; rfl) _
        tsumo := by simp only [h.tsumo]
        doras := by simp only [h.doras, List.map_append, List.map_cons, List.map_nil]
        tokens := h.tokens.append (.cons (.dora htok (by rw [← tile_kind ht]; exact htok')) .nil) }
  | @declare q i t hq hcu ht hd ha =>
    cases e' with
    | declare hq' hc' ht' hd' ha' =>
      rw [h.curr, hcu] at hc'
      cases hc'
      exact { h with
        ippatsu := by simp only [h.ippatsu]
        turns := h.turns.set_both _ (h.turns.get _ ht ht').markReach
        fresh := by
          intro j x ej ex
          have ej : s.curr_halfturn = some j := ej
          rw [hcu] at ej
          cases ej
          have ex : (s.halfturns.set i t.markReach)[i]? = some x := ex
          rw [List.getElem?_set_self (List.getElem?_eq_some_iff.1 ht).1] at ex
          cases ex
          exact (h.fresh i t hcu ht).markReach }
  | @accept q i token t v hq hcu ht hd hv htok =>
    cases e' with
    | accept hq' hc' ht' hd' hv' htok' =>
      rw [h.scores, hv] at hv'
      cases hv'
      rw [htok] at htok'
      cases htok'
      exact { h with
        reaches := by simp only [h.reaches]
        kyotaku := by simp only [h.kyotaku]
        scores := by simp only [h.scores]
        double := by simp only [h.double, h.cycles, h.menzen]
        tokens := h.tokens.append (.cons (.reach htok) .nil)
        ippatsu := by simp only [h.ippatsu] }
  | call d =>
    cases e' with
    | call d' => exact h.call hσ hc (hw _ _ rfl).1 (hw _ _ rfl).2 d d'
  | draw hq d =>
    cases e' with
    | draw hq' d' => exact h.draw hσ hc (hred _) d d'
  | discard hq d =>
    cases e' with
    | discard hq' d' => exact h.discard hσ hc hq d d'

theorem TableOk.reds {hands ht : Nat → Nat → Int} (h : TableOk hands ht) (p : Nat) : ∀ x < 3, ht p (34 + x) ≠ 4 := by
  intro x hx
  have : ht p (34 + x) = hands p (36 * x + 16) := by
    rw [h.count]
    exact heldCnt_red _ _ _ (by omega) (by intro t ht; rw [mem_tile2idx]; unfold InSlot; omega) (h.bit p _)
  have hb := h.bit p (36 * x + 16)
  omega

theorem suits_reached {Q : Prop} {σ : Suits} (hσ : σ.Proper) {c c' : RoundCfg} (hc : CfgSuits σ c c') : ∀ (acts : List Act)
    {s s' s1 s1' : RoundSt}, StSuits Q σ s s' → TableOk s.hands s.hand_tensors → (∀ p k, Act.call p k ∈ acts → WellFormed k ∧
      (Q → is_pon k = true → σ.Kept ((pattern_pon k).color * 9 + (pattern_pon k).number))) →
    Reached c s acts s1 → Reached c' s' (acts.map (Act.suits σ)) s1' → StSuits Q σ s1 s1'
  | [], s, s', s1, s1', h, _, _, hr, hr' => by
    rw [hr.det .start, hr'.det .start]
    exact h
  | a :: l, s, s', s1, s1', h, ht, hn, hr, hr' => by
    obtain ⟨x, y, h1, h2, _, h4⟩ := Reached.at (pre := []) hr
    obtain ⟨x', y', h1', h2', _, h4'⟩ := Reached.at (pre := []) (post := l.map (Act.suits σ)) hr'
    rw [h1.det .start] at h2
    rw [h1'.det .start] at h2'
    have ht2 := tableOk_effect ht h2
    exact suits_reached hσ hc l (h.step hσ hc (fun p k e => hn p k (by simp [e])) ht2.reds h2 h2') ht2
      (fun p k hm => hn p k (by simp [hm])) h4 h4'

/-- the start of the same round with the suits exchanged -/
structure DealSuits (σ : Suits) (a a' : InitAttr) : Prop where
  seed : ∀ r h k x y d, a.seed = .ok [r, h, k, x, y, d] → a'.seed = .ok [r, h, k, x, y, σ.tile d]
  oya : a'.oya = a.oya
  hai : ∀ p < 4, ∀ l, a.hai p = .ok l → a'.hai p = .ok (l.map σ.tile)
  ten : a'.ten = a.ten

theorem DealSuits.start {Q : Prop} {σ : Suits} (hσ : σ.Proper) {est est' : Estimate} {sh sh' : List Int → Except PyErr Int} {g : GameInfo}
    {a a' : InitAttr} {c c' : RoundCfg} {s0 s0' : RoundSt} (h : DealSuits σ a a') (hest : EvalSuits σ est est')
    (hsh : DistanceSuits σ sh sh') (hi : initRound est sh g a = .ok (c, s0))
    (hi' : initRound est' sh' g a' = .ok (c', s0')) : CfgSuits σ c c' ∧ StSuits Q σ s0 s0' := by
  obtain ⟨d⟩ := initRound_ok hi
  obtain ⟨d'⟩ := initRound_ok hi'
  have hseed := d'.seed_eq
  rw [h.seed _ _ _ _ _ _ d.seed_eq] at hseed
  simp only [Except.ok.injEq, List.cons.injEq, and_true] at hseed
  obtain ⟨e1, e2, e3, _, _, e4⟩ := hseed
  have e5 := d'.parent_eq
  rw [h.oya, d.parent_eq] at e5
  have e6 := d'.scores_eq
  rw [h.ten, d.scores_eq] at e6
  simp only [Except.ok.injEq] at e5 e6
  have e7 : ∀ p, d'.hai p = (d.hai p).map σ.tile := by
    intro p
    by_cases hp : p < 4
    · have := d'.hai_eq p hp
      rw [h.hai p hp _ (d.hai_eq p hp)] at this
      simpa using this.symm
    · rw [d.hai_none p (by omega), d'.hai_none p (by omega)]; rfl
  refine ⟨?_, ?_⟩
  · rw [d.cfg_eq, d'.cfg_eq]
    exact ⟨hest, hsh, by simp only [e2], e5.symm, by simp only [e1], by simp only [e1], by simp only [e1], by simp only [e1]⟩
  · rw [d.state_eq, d'.state_eq]
    exact {
      hands := by
        intro p t
        show (if σ.tile t ∈ d'.hai p then (1 : Int) else 0) = if t ∈ d.hai p then 1 else 0
        rw [e7 p]
        simp only [mem_tiles hσ]
      hand_tensors := by
        intro p
        show SlotsMoved σ (countTiles (d.hai p) (fun _ => 0) 1) (countTiles (d'.hai p) (fun _ => 0) 1)
        rw [e7 p]
        exact countTiles_suits hσ (d.hai_lt p) (fun _ => rfl) 1
      full := by
        intro p
        show SlotsMoved σ (countTiles (d.hai p) (fun _ => 0) 1) (countTiles (d'.hai p) (fun _ => 0) 1)
        rw [e7 p]
        exact countTiles_suits hσ (d.hai_lt p) (fun _ => rfl) 1
      pov := by
        intro p
        show SlotsMoved σ (addAt (countTiles (d.hai p) remainingTiles (-1)) (tile2idx d.dora0) (-1))
          (addAt (countTiles (d'.hai p) remainingTiles (-1)) (tile2idx d'.dora0) (-1))
        rw [e7 p, ← e4]
        exact slotsMoved_addAt hσ (countTiles_suits hσ (d.hai_lt p) (remaining_suits hσ) (-1)) (tile2idx_tile hσ d.dora_lt) (-1)
      tsumo := rfl
      sutehai := fun _ _ => rfl
      doras := by simp only [← e4, List.map_cons, List.map_nil]
      scores := e6.symm
      kyotaku := by simp only [e3]
      double := rfl
      reaches := rfl
      ippatsu := rfl
      melds := fun _ => rfl
      wf := by simp
      pons := by simp
      menzen := rfl
      curr := rfl
      cycles := rfl
      acquired := rfl
      obj := .inl ⟨rfl, rfl⟩
      tokens := .nil
      turns := .nil
      fresh := by simp }

end MJ
