import Verif.Proofs.Builds
import Verif.Props.Pipeline
import Verif.Proofs.NakiSame
/-!
C101: which accepted rounds can be turned into tensors.
-/
namespace MJ
open Code Spec

/-! ### action numbers of the offers -/

theorem chi_number : ∀ color < 3, ∀ n < 7, ∀ w < 3, ∀ r : Bool,
    okAnd (get_post_turn_filter_idx (chiInfo color n w r)) (fun i => decide (i < 154)) = true := by
  decide +kernel

theorem pon_number : ∀ t < 34, ∀ w < 2, ∀ r : Bool, ∀ q < 4,
    okAnd (get_post_turn_filter_idx (ponInfo t w r q)) (fun i => decide (i < 154)) = true := by
  decide +kernel

theorem minkan_number : ∀ t < 34, ∀ w < 2, ∀ q < 4, q ≠ 0 →
    okAnd (get_post_turn_filter_idx (minkanInfo t q w)) (fun i => decide (i < 154)) = true := by
  decide +kernel

theorem ankan_number : ∀ t < 34, okAnd (get_during_turn_filter_idx (ankanInfo t)) (fun i => decide (i < 71)) = true := by
  decide +kernel

theorem kakan_number : ∀ t < 34, okAnd (get_during_turn_filter_idx (kakanInfo t 0)) (fun i => decide (i < 71)) = true := by
  decide +kernel

theorem offered_number {q p : Nat} {h : Hand} {t : Nat} {red : Bool} {c : Nat} (hq : q < 4) (hp : p < 4) (hne : p ≠ q) (ht : t < 34)
    (ho : Offered q p h t red c) : ∃ i, get_post_turn_filter_idx c = .ok i ∧ i < 154 := by
  have hsrc : source q p < 4 ∧ source q p ≠ 0 := by unfold source; omega
  have red1 : red.toNat < 2 := by cases red <;> decide
  have key : okAnd (get_post_turn_filter_idx c) (fun i => decide (i < 154)) = true := by
    rcases ho with ⟨_, n, w, r, hc, rfl⟩ | ⟨w, r, hc, rfl⟩ | ⟨w, hc, rfl⟩
    · obtain ⟨h1, h2, h3, h4, _, _, h5⟩ := hc
      refine chi_number _ (by omega) n h2 w ?_ r
      rw [h5]
      split
      · omega
      · split <;> omega
    · refine pon_number t ht w ?_ r _ hsrc.1
      unfold PonOffer at hc
      split at hc
      · split at hc
        · rcases hc with hc | hc <;> omega
        · rw [hc.2.1]; exact red1
      · omega
    · refine minkan_number t ht w ?_ _ hsrc.1 hsrc.2
      rw [hc.2]
      split
      · exact red1
      · omega
  obtain ⟨i, h1, h2⟩ := okAnd_ok key
  exact ⟨i, h1, by simpa using h2⟩

theorem mask_number {q : Nat} {hands : Nat → Hand} {t : Nat} {red : Bool} {ds : List (List NakiDecision)} (hq : q < 4) (ht : t < 34)
    (h : decisionMask q hands t red = .ok ds) :
    ∀ l ∈ ds, ∀ d ∈ l, ∃ i, get_post_turn_filter_idx d.naki.naki_code = .ok i ∧ i < 154 := by
  obtain ⟨ds', e, hlen, hm⟩ := decisionMask_spec q hands t red ht hq
  rw [h] at e
  cases e
  intro l hl d hd
  obtain ⟨p, hp, rfl⟩ := List.mem_iff_getElem.1 hl
  have hp4 : p < 4 := by omega
  obtain ⟨l', h1, h2⟩ := hm p hp4
  rw [List.getElem?_eq_getElem hp, Option.some.injEq] at h1
  rw [h1] at hd
  obtain ⟨hne, c, hc, rfl⟩ := (h2 d).1 hd
  exact offered_number hq hp4 hne ht hc

/-- the kind of a pon -/
def ponKind (c : Nat) : Nat := 9 * (pattern_pon c).color + (pattern_pon c).number

theorem ponKind_lt {c : Nat} {ex : List Nat} {acq : Option Nat} (h : get_exposed c = .ok (ex, acq)) (hp : is_pon c = true)
    (hlt : ∀ t ∈ ex, t < 136) : ponKind c < 34 := by
  have hc : is_chi c = false := by
    unfold is_pon at hp
    simp at hp
    exact hp.1
  have hs : ex.length = 2 := by
    rcases exposed_size h with ⟨_, h, _⟩ | ⟨_, h, _⟩ | ⟨_, h, _⟩ | ⟨_, h, _⟩
    · exact h
    all_goals rw [hp] at h; cases h
  have he : ex = (pattern_pon c).exposed := by
    unfold get_exposed at h
    rw [if_neg (by simp [hc]), if_pos hp] at h
    simp only [Except.ok.injEq, Prod.mk.injEq] at h
    exact h.1.symm
  obtain ⟨x, ex', rfl⟩ := List.exists_cons_of_ne_nil (by intro h0; rw [h0] at hs; simp at hs : ex ≠ [])
  have hx := hlt x (by simp)
  have hm : x ∈ (pattern_pon c).exposed := by rw [← he]; simp
  have : 4 * ponKind c ≤ x := by
    have hm := List.mem_of_mem_eraseIdx hm
    obtain ⟨k, _, rfl⟩ := List.mem_map.1 hm
    show 4 * (9 * _ + _) ≤ (9 * _ + _) * 4 + k
    simp only [pattern_pon]
    omega
  omega

theorem mem_removePon {k : Nat} {l : List Naki} {m : Naki} (h : m ∈ removePon k l) : m ∈ l := by
  induction l with
  | nil => simp [removePon] at h
  | cons x l ih =>
    unfold removePon at h
    split at h
    · simp [h]
    · rcases List.mem_cons.1 h with rfl | h
      · simp
      · simp [ih h]

theorem melds_reached {c : RoundCfg} {s0 : RoundSt} (h0 : ∀ p, s0.melds p = []) {acts : List Act} {s : RoundSt}
    (hr : Reached c s0 acts s) : ∀ p, ∀ m ∈ s.melds p, is_pon m.naki_code = true → ponKind m.naki_code < 34 := by
  refine hr.induct (P := fun _ s => ∀ p, ∀ m ∈ s.melds p, is_pon m.naki_code = true → ponKind m.naki_code < 34) ?_ ?_
  · intro p m hm; rw [h0 p] at hm; simp at hm
  · intro acts s act s' _ ih he
    cases he with
    | dora => exact ih
    | declare => exact ih
    | accept => exact ih
    | draw hp e => rw [e.state_eq]; exact ih
    | discard hp e => rw [e.state_eq]; exact ih
    | @call p code _ e =>
      rw [e.state_eq]
      intro q m hm
      change m ∈ setAt s.melds p _ q at hm
      by_cases hq : q = p
      · subst hq
        rw [setAt_same] at hm
        have hm : m ∈ s.melds q ++ [e.naki] := by
          split at hm
          · exact mem_removePon hm
          · exact hm
        rcases List.mem_append.1 hm with hm | hm
        · exact ih q m hm
        · simp only [List.mem_singleton] at hm
          subst hm
          rw [e.code_eq]
          exact fun h => ponKind_lt e.exposed_eq h e.ex_lt
      · rw [setAt_ne _ _ _ _ hq] at hm
        exact ih q m hm

theorem kakan_numbers {hands : Nat → Nat → Int} {p : Nat} : ∀ (ms : List Naki) {l : List NakiDecision},
    kakanOffers hands p ms = .ok l → (∀ m ∈ ms, is_pon m.naki_code = true → ponKind m.naki_code < 34) →
    ∀ d ∈ l, ∃ i, get_during_turn_filter_idx d.naki.naki_code = .ok i ∧ i < 71
  | [], l, h, _ => by
    simp only [kakanOffers, Except.ok.injEq] at h
    subst h
    simp
  | m :: ms, l, h, hm => by
    by_cases hc : (is_pon m.naki_code && hands p (9 * (pattern_pon m.naki_code).color + (pattern_pon m.naki_code).number) == 1) = true
    · simp only [kakanOffers, if_pos hc, bind_ok, pure_ok] at h
      obtain ⟨here, h1, rest, h2, rfl⟩ := h
      intro d hd
      rcases List.mem_append.1 hd with hd | hd
      · simp only [Bool.and_eq_true] at hc
        have hk : ponKind m.naki_code < 34 := hm m (by simp) hc.1
        obtain ⟨i, h3, h4⟩ := okAnd_ok (kakan_number _ hk)
        cases h1
        simp only [List.mem_singleton] at hd
        subst hd
        exact ⟨i, h3, by simpa using h4⟩
      · exact kakan_numbers ms h2 (fun m h => hm m (by simp [h])) d hd
    · simp only [kakanOffers, if_neg hc, bind_ok, pure_ok] at h
      obtain ⟨here, h1, rest, h2, rfl⟩ := h
      cases h1
      intro d hd
      exact kakan_numbers ms h2 (fun m h => hm m (by simp [h])) d (by simpa using hd)

theorem ankan_numbers {s : RoundSt} {p : Nat} (hred : ∀ k, 34 ≤ k → k < 37 → s.hand_tensors p k ≠ 4) :
    ∀ d ∈ ankanOffers s p, ∃ i, get_during_turn_filter_idx d.naki.naki_code = .ok i ∧ i < 71 := by
  intro d hd
  simp only [ankanOffers, List.mem_map, List.mem_filter, List.mem_range, beq_iff_eq] at hd
  obtain ⟨k, ⟨hk, h4⟩, rfl⟩ := hd
  have hk : k < 34 := by
    apply Classical.byContradiction
    intro h
    exact hred k (by omega) hk h4
  obtain ⟨i, h3, h4⟩ := okAnd_ok (ankan_number _ hk)
  exact ⟨i, h3, by simpa using h4⟩

theorem mem_markNaki {k : Nat} {l : List NakiDecision} {d : NakiDecision} (h : d ∈ markNaki k l) :
    ∃ d' ∈ l, d'.naki = d.naki := by
  induction l with
  | nil => simp [markNaki] at h
  | cons x l ih =>
    unfold markNaki at h
    split at h
    · rcases List.mem_cons.1 h with rfl | h
      · exact ⟨x, by simp, rfl⟩
      · exact ⟨d, by simp [h], rfl⟩
    · rcases List.mem_cons.1 h with rfl | h
      · exact ⟨d, by simp, rfl⟩
      · obtain ⟨d', h1, h2⟩ := ih h
        exact ⟨d', by simp [h1], h2⟩

theorem codes_mark (k : Nat) (t : HalfTurn) (h : Codes t) : Codes (t.mark k) := by
  cases t with
  | during p o e a r n =>
    intro d hd
    obtain ⟨d', h1, h2⟩ := mem_markNaki hd
    rw [← h2]
    exact h d' h1
  | discard => exact h
  | post p o e a n =>
    intro l hl d hd
    obtain ⟨l', hl', rfl⟩ := List.mem_map.1 hl
    obtain ⟨d', h1, h2⟩ := mem_markNaki hd
    rw [← h2]
    exact h l' hl' d' h1

theorem codes_reached {est : Estimate} {sh : List Int → Except PyErr Int} {g : GameInfo} {a : InitAttr}
    {c : RoundCfg} {s0 : RoundSt} (hi : initRound est sh g a = .ok (c, s0)) {acts : List Act} {s : RoundSt}
    (hr : Reached c s0 acts s) : ∀ h ∈ s.halfturns, Codes h := by
  obtain ⟨d0⟩ := initRound_ok hi
  refine hr.induct (P := fun _ s => ∀ h ∈ s.halfturns, Codes h) ?_ ?_
  · rw [congrArg RoundSt.halfturns d0.state_eq]; simp
  · intro acts s act s' hr ih he
    cases he with
    | dora => exact ih
    | @declare p i t h1 h2 h3 h4 h5 =>
      intro h hh
      rcases List.mem_or_eq_of_mem_set hh with hh | rfl
      · exact ih h hh
      · have := ih t (List.mem_of_getElem? h3)
        cases t <;> exact this
    | accept => exact ih
    | @draw p t _ hp e =>
      have hs34 : ∀ k, 34 ≤ k → k < 37 → (drawTile s p t).hand_tensors p k ≠ 4 := by
        intro k h1 h2
        have hc := tableOk_reached hi hr
        obtain ⟨hbit, _, _, e1, e2, e3⟩ := C33_hand_tensors hi hr p
        have hle : s.hand_tensors p k ≤ 1 := by
          have : k = 34 ∨ k = 35 ∨ k = 36 := by omega
          rcases this with rfl | rfl | rfl
          · rw [e1]; rcases hbit 16 with h | h <;> omega
          · rw [e2]; rcases hbit 52 with h | h <;> omega
          · rw [e3]; rcases hbit 88 with h | h <;> omega
        show addRow s.hand_tensors p (tile2idx t) 1 p k ≠ 4
        unfold addRow
        rw [setAt_same]
        unfold addAt
        split <;> omega
      rw [e.state_eq]
      intro h hh
      rcases List.mem_append.1 hh with hh | hh
      · exact ih h hh
      · simp only [List.mem_singleton] at hh
        subst hh
        intro d hd
        rcases List.mem_append.1 hd with hd | hd
        · exact ankan_numbers hs34 d hd
        · exact kakan_numbers _ e.kakan_eq (melds_reached (by intro p; rw [congrArg RoundSt.melds d0.state_eq]) hr p) d hd
    | @discard p t _ hp e =>
      rw [e.state_eq]
      have := e.tile_lt
      intro h hh
      rcases List.mem_append.1 hh with hh | hh
      · exact ih h hh
      · simp only [List.mem_cons, List.not_mem_nil, or_false] at hh
        rcases hh with rfl | rfl
        · exact this
        · exact mask_number hp (by omega) e.offers_eq
    | @call p code _ e =>
      rw [e.state_eq]
      intro h hh
      rcases List.mem_append.1 hh with hh | hh
      · rcases List.mem_or_eq_of_mem_set hh with hh | rfl
        · exact ih h hh
        · exact codes_mark _ _ (ih e.t (List.mem_of_getElem? e.turn_eq))
      · unfold chankanTurn at hh
        split at hh
        · simp only [List.mem_singleton] at hh
          subst hh
          intro l hl d hd
          simp only [List.mem_map] at hl
          obtain ⟨_, _, rfl⟩ := hl
          simp at hd
        · simp at hh

/-! ### lists of points -/

structure Lengths (n : Nat) (l : List Int) (s : RoundSt) : Prop where
  now : s.scores.length = n
  kept : ∀ o, s.stateObj = some o → o.scores.length = n ∧ o.parent_rounds_remaining = l
  turns : ∀ h ∈ s.halfturns, h.obj.scores.length = n ∧ h.obj.parent_rounds_remaining = l

theorem lengths_reached {c : RoundCfg} {s0 : RoundSt} {n : Nat} (h0 : Lengths n c.parent_rounds_remaining s0)
    {acts : List Act} {s : RoundSt} (hr : Reached c s0 acts s) : Lengths n c.parent_rounds_remaining s := by
  refine hr.induct (P := fun _ s => Lengths n c.parent_rounds_remaining s) h0 ?_
  intro acts s act s' hr ih he
  cases he with
  | dora => exact ⟨ih.now, ih.kept, ih.turns⟩
  | declare h1 h2 h3 h4 h5 =>
    exact ⟨ih.now, ih.kept, forall_obj_set (P := fun o => o.scores.length = _ ∧ o.parent_rounds_remaining = _) h3 (obj_markReach _) ih.turns⟩
  | accept h1 h2 h3 h4 h5 h6 =>
    refine ⟨?_, ih.kept, ih.turns⟩
    show (s.scores.set _ _).length = _
    rw [List.length_set]
    exact ih.now
  | @draw p t _ hp e =>
    rw [e.state_eq]
    refine ⟨ih.now, ?_, ?_⟩
    · intro o ho
      have : o = mkStateObj c (drawTile s p t) p := (Option.some.inj ho).symm
      subst this
      exact ⟨ih.now, rfl⟩
    · intro h hh
      rcases List.mem_append.1 hh with hh | hh
      · exact ih.turns h hh
      · simp only [List.mem_singleton] at hh
        subst hh
        exact ⟨ih.now, rfl⟩
  | @discard p t _ hp e =>
    rw [e.state_eq]
    refine ⟨ih.now, ih.kept, ?_⟩
    intro h hh
    rcases List.mem_append.1 hh with hh | hh
    · exact ih.turns h hh
    · simp only [List.mem_cons, List.not_mem_nil, or_false] at hh
      rcases hh with rfl | rfl <;> exact ih.kept e.o e.obj_eq
  | @call p code _ e =>
    rw [e.state_eq]
    refine ⟨ih.now, ?_, ?_⟩
    · intro o ho
      have : o = nakiObj c s code p := (Option.some.inj ho).symm
      subst this
      exact ⟨ih.now, rfl⟩
    · intro h hh
      rcases List.mem_append.1 hh with hh | hh
      · exact forall_obj_set (P := fun o => o.scores.length = _ ∧ o.parent_rounds_remaining = _) e.turn_eq (obj_mark _ _) ih.turns h hh
      · unfold chankanTurn at hh
        split at hh
        · simp only [List.mem_singleton] at hh
          subst hh
          exact ⟨ih.now, rfl⟩
        · simp at hh

/-! ### C101, exactly -/

/-- C101: an accepted round can be turned into tensors if and only if every half-turn used for training comes after fewer
than 150 tokens, there are four scores, and everybody who discards has a tile at the end of the round. -/
theorem C101_exact {est : Estimate} {sh : List Int → Except PyErr Int} {g : GameInfo} {a : InitAttr} {evs : List Ev}
    {s : RoundSt} (h : processRound est sh g a evs = .ok s) (v : Variant) :
    (∃ d c p, buildTensors v s s.halfturns s.encoding_tokens = .ok (d, c, p)) ↔
      ∀ t ∈ s.halfturns, sampled t → t.encodingIdx < 150 ∧ s.scores.length = 4 ∧
        (t.isDiscard = true → ∃ k < 37, s.hand_tensors t.obj.player k ≠ 0) := by
  have hf := fourLists_accepted h
  obtain ⟨c, s0, acts, rest, h1, _, _, _, h2⟩ := accepted_reached h
  have hc := codes_reached h1 h2
  obtain ⟨d⟩ := initRound_ok h1
  have hl : Lengths s0.scores.length c.parent_rounds_remaining s := lengths_reached ⟨rfl,
    by rw [congrArg RoundSt.stateObj d.state_eq]; simp, by rw [congrArg RoundSt.halfturns d.state_eq]; simp⟩ h2
  have hp4 : c.parent_rounds_remaining.length = 4 := by rw [congrArg RoundCfg.parent_rounds_remaining d.cfg_eq]; simp
  have key := buildTensors_iff v s s.halfturns s.encoding_tokens hf hc
  have hobj : ∀ t : HalfTurn, turnObj t = t.obj := by intro t; cases t <;> rfl
  have hpos : ∀ t : HalfTurn, turnPos t = t.encodingIdx := by intro t; cases t <;> rfl
  constructor
  · rintro ⟨d, c, p, hb⟩ t ht hs
    obtain ⟨⟨h3, h4, _⟩, h5⟩ := key.1 ⟨_, hb⟩ t ht hs
    rw [hobj] at h4 h5
    rw [hpos] at h3
    exact ⟨h3, by rw [hl.now, ← (hl.turns t ht).1]; exact h4, h5⟩
  · intro hx
    obtain ⟨⟨d, c, p⟩, hb⟩ := key.2 (by
      intro t ht hs
      obtain ⟨h3, h4, h5⟩ := hx t ht hs
      rw [hobj, hpos]
      exact ⟨⟨h3, by rw [(hl.turns t ht).1, ← hl.now]; exact h4, by rw [(hl.turns t ht).2]; exact hp4⟩, h5⟩)
    exact ⟨d, c, p, hb⟩

/-! ### hand sizes and numbers of events -/

/-- 1 for a call by `p` that puts down a new set: not for a tile added to a pon -/
def Spec.Act.newSet (p : Nat) : Act → Nat
  | .call q c => if q = p ∧ is_kakan c = false then 1 else 0
  | _ => 0

/-- the number of sets player `p` has put down -/
def Spec.setsOf (p : Nat) (acts : List Act) : Nat := (acts.map (Act.newSet p)).sum

def Spec.Act.isAccept : Act → Bool
  | .accept .. => true
  | _ => false

def Spec.Act.isDora : Act → Bool
  | .dora .. => true
  | _ => false

theorem setsOf_snoc (p : Nat) (acts : List Act) (x : Act) : setsOf p (acts ++ [x]) = setsOf p acts + x.newSet p := by
  simp [setsOf]

theorem call_kinds {code : Nat} {ex : List Nat} {acq : Option Nat} (w : WellFormed code)
    (h : get_exposed code = .ok (ex, acq)) (p : Nat) :
    ((Act.call p code).isChiPon = true ∧ (Act.call p code).isOwnKan = false ∧ (Act.call p code).isKan = false ∧
      is_kakan code = false ∧ ex.length = 2) ∨
    ((Act.call p code).isChiPon = false ∧ (Act.call p code).isOwnKan = true ∧ (Act.call p code).isKan = true ∧
      is_kakan code = true ∧ ex.length = 1) ∨
    ((Act.call p code).isChiPon = false ∧ (Act.call p code).isOwnKan = false ∧ (Act.call p code).isKan = true ∧
      is_kakan code = false ∧ ex.length = 3) ∨
    ((Act.call p code).isChiPon = false ∧ (Act.call p code).isOwnKan = true ∧ (Act.call p code).isKan = true ∧
      is_kakan code = false ∧ ex.length = 4) := by
  unfold Act.isChiPon Act.isOwnKan Act.isKan
  rcases exposed_size h with ⟨h1, h2, _⟩ | ⟨h1, h2, h3, h4⟩ | ⟨h1, h2, h3, h4, h5, h6⟩ | ⟨h1, h2, h3, h4, h5, h6⟩
  · left
    have hk : is_kakan code = false ∧ is_minkan code = false ∧ is_ankan code = false := by
      by_cases hc : is_chi code = true
      · exact chi_not_kan hc
      · have hc : is_chi code = false := by simpa using hc
        have hp : is_pon code = true := by
          rcases h1 with h1 | h1
          · rw [hc] at h1; cases h1
          · exact h1
        refine ⟨?_, pon_not_kan hp⟩
        have := (wf_pon code hc hp w).2.1
        rw [← Bool.not_eq_true, is_kakan_iff]
        omega
    refine ⟨?_, ?_, ?_, hk.1, h2⟩
    · rcases h1 with h1 | h1 <;> simp [h1]
    · simp [hk]
    · simp [hk]
  · right; left
    exact ⟨by simp [h1, h2], by simp [h3], by simp [h3], h3, h4⟩
  · right; right; left
    exact ⟨by simp [h1, h2], by simp [h3, h5], by simp [h4], h3, h6⟩
  · right; right; right
    exact ⟨by simp [h1, h2], by simp [h5], by simp [h5], h3, h6⟩

theorem holder_call (p code : Nat) : holderOf (some (.call p code)) = if (Act.call p code).isKan = true then none else some p := rfl

theorem draw_nobody {est : Estimate} {sh : List Int → Except PyErr Int} {g : GameInfo} {a : InitAttr}
    {c : RoundCfg} {s0 : RoundSt} (hi : initRound est sh g a = .ok (c, s0)) {acts : List Act} {s : RoundSt}
    (hr : Reached c s0 acts s) (hn : s.acquired = none) : holderOf (lastMove acts) = none := by
  have h1 := (phase_reached hi hr).acq
  rw [hn] at h1
  cases hl : lastMove acts with
  | none => rfl
  | some m =>
    rw [hl] at h1
    cases m with
    | draw p' t' => simp [acquiredOf] at h1
    | call p' c' =>
      obtain ⟨pre, post, rfl, _, _⟩ := lastMove_split acts _ hl
      obtain ⟨s1, s2, _, he, _, _⟩ := hr.at
      cases he with
      | call e' =>
        simp only [acquiredOf] at h1
        simp only [holderOf]
        split
        · rfl
        · rename_i hnk
          rw [if_neg hnk, e'.called] at h1
          rcases exposed_size e'.exposed_eq with ⟨_, _, h3⟩ | ⟨_, _, h3, _⟩ | ⟨_, _, _, h3, _⟩ | ⟨_, _, _, _, h3, _⟩
          · rw [← h1] at h3; simp at h3
          · simp [h3] at hnk
          · simp [h3] at hnk
          · simp [h3] at hnk
    | discard => rfl
    | dora => rfl
    | declare => rfl
    | accept => rfl

/-- 1 if player `q` has a tile too many -/
def Spec.extra (acts : List Act) (q : Nat) : Nat := if holderOf (lastMove acts) = some q then 1 else 0

structure Sizes (acts : List Act) (s : RoundSt) : Prop where
  size : ∀ q < 4, sum34 (s.hand_tensors q) + 3 * setsOf q acts = 13 + extra acts q
  count : acts.countP Act.isDraw + acts.countP Act.isChiPon =
    acts.countP Act.isDiscard + acts.countP Act.isOwnKan + if (holderOf (lastMove acts)).isSome then 1 else 0

theorem Sizes.same {acts : List Act} {s s' : RoundSt} (ih : Sizes acts s) {x : Act} (hh : s'.hand_tensors = s.hand_tensors)
    (hm : x.isMove = false) : Sizes (acts ++ [x]) s' := by
  have hl : lastMove (acts ++ [x]) = lastMove acts := by rw [lastMove_snoc, hm]; rfl
  have hns : ∀ q, x.newSet q = 0 := by intro q; cases x <;> simp_all [Act.isMove, Act.newSet]
  refine ⟨?_, ?_⟩
  · intro q hq
    unfold extra
    rw [hh, setsOf_snoc, hns q, hl]
    exact ih.size q hq
  · rw [hl]
    have h1 : x.isDraw = false ∧ x.isChiPon = false ∧ x.isDiscard = false ∧ x.isOwnKan = false := by
      cases x <;> simp_all [Act.isMove, Act.isDraw, Act.isChiPon, Act.isDiscard, Act.isOwnKan]
    simp only [List.countP_append, List.countP_singleton, h1, Bool.false_eq_true, if_false, Nat.add_zero]
    exact ih.count

theorem sizes_reached {est : Estimate} {sh : List Int → Except PyErr Int} {g : GameInfo} {a : InitAttr}
    {c : RoundCfg} {s0 : RoundSt} (hi : initRound est sh g a = .ok (c, s0))
    {acts : List Act} {s : RoundSt} (hr : Reached c s0 acts s) (hk : KansByDrawer acts)
    (hw : ∀ p c, Act.call p c ∈ acts → WellFormed c) : Sizes acts s := by
  obtain ⟨d⟩ := initRound_ok hi
  revert hk hw
  refine hr.induct (P := fun acts s => KansByDrawer acts → (∀ p c, Act.call p c ∈ acts → WellFormed c) → Sizes acts s) ?_ ?_
  · intro _ _
    refine ⟨?_, by simp [lastMove, holderOf]⟩
    intro q hq
    rw [congrArg RoundSt.hand_tensors d.state_eq]
    show sum34 (countTiles (d.hai q) (fun _ => 0) 1) + _ = _
    rw [sum34_init _ (d.hai_lt q), d.hai_len q hq]
    simp [setsOf, extra, lastMove, holderOf]
  · intro acts s act s' hr ih he hk hw
    have ih := ih (KansByDrawer.init hk) (fun p c h => hw p c (by simp [h]))
    have ph := phase_reached hi hr
    have hcnt := ih.count
    cases he with
    | dora => exact ih.same rfl rfl
    | declare => exact ih.same rfl rfl
    | accept => exact ih.same rfl rfl
    | @draw p t _ hp e =>
      have hnone := draw_nobody hi hr e.acquired_none
      have hl : lastMove (acts ++ [Act.draw p t]) = some (.draw p t) := by rw [lastMove_snoc]; rfl
      refine ⟨?_, ?_⟩
      · intro q hq
        have h1 := ih.size q hq
        unfold extra at h1 ⊢
        rw [hl, setsOf_snoc, e.state_eq]
        rw [hnone] at h1
        show sum34 (addRow s.hand_tensors p (tile2idx t) 1 q) + 3 * ((setsOf q acts + 0 : Nat) : Int) = _
        by_cases hqp : q = p
        · subst hqp
          rw [sum34_addRow_same _ _ _ _ e.tile_lt]
          simp [holderOf] at h1 ⊢
          omega
        · rw [sum34_addRow_ne _ _ _ _ _ hqp]
          have : ¬ p = q := fun h => hqp h.symm
          simp [holderOf, this] at h1 ⊢
          omega
      · rw [hl]
        rw [hnone] at hcnt
        simp only [List.countP_append, List.countP_singleton, Act.isDraw, Act.isChiPon, Act.isDiscard, Act.isOwnKan, holderOf,
          Option.isSome] at hcnt ⊢
        simp at hcnt ⊢
        omega
    | @discard p t _ hp e =>
      have hsum := e.sum_eq
      have h2 : sum34 ((discardTile s p t).hand_tensors p) = sum34 (s.hand_tensors p) + -1 :=
        sum34_addRow_same _ _ _ _ e.tile_lt
      have hhold : holderOf (lastMove acts) = some p := by
        apply Classical.byContradiction
        intro hne
        have h1 := ih.size p hp
        unfold extra at h1
        rw [if_neg hne] at h1
        omega
      have hl : lastMove (acts ++ [Act.discard p t]) = some (.discard p t) := by rw [lastMove_snoc]; rfl
      refine ⟨?_, ?_⟩
      · intro q hq
        have h1 := ih.size q hq
        unfold extra at h1 ⊢
        rw [hl, setsOf_snoc, e.state_eq]
        rw [hhold] at h1
        show sum34 ((discardTile s p t).hand_tensors q) + 3 * ((setsOf q acts + 0 : Nat) : Int) = _
        by_cases hqp : q = p
        · subst hqp
          rw [h2]
          simp [holderOf] at h1 ⊢
          omega
        · have h3 : sum34 ((discardTile s p t).hand_tensors q) = sum34 (s.hand_tensors q) :=
            sum34_addRow_ne s.hand_tensors _ _ _ _ hqp
          rw [h3]
          have : ¬ p = q := fun h => hqp h.symm
          simp [holderOf, this] at h1 ⊢
          omega
      · rw [hl]
        rw [hhold] at hcnt
        simp only [List.countP_append, List.countP_singleton, Act.isDraw, Act.isChiPon, Act.isDiscard, Act.isOwnKan, holderOf,
          Option.isSome] at hcnt ⊢
        simp at hcnt ⊢
        omega
    | @call p code _ e =>
      obtain ⟨_, _, _, h4⟩ := expose_ok e.expose_eq
      have hself : sum34 (e.ht' p) = sum34 (s.hand_tensors p) - e.ex.length := by
        have : e.ht' p = fun k => s.hand_tensors p k - cnt e.ex k := by
          funext k; rw [h4 p k, if_pos rfl]
        rw [this, sum34_sub_cnt _ _ e.ex_lt]
      have hoth : ∀ q, q ≠ p → sum34 (e.ht' q) = sum34 (s.hand_tensors q) := by
        intro q hq
        have : e.ht' q = s.hand_tensors q := by
          funext k; rw [h4 q k, if_neg hq]
        rw [this]
      have hkind := e.kind_eq
      have hck := call_kinds (hw p code (by simp)) e.exposed_eq p
      have hl : lastMove (acts ++ [Act.call p code]) = some (.call p code) := by rw [lastMove_snoc]; rfl
      have hbefore : holderOf (lastMove acts) = if (Act.call p code).isOwnKan = true then some p else none := by
        by_cases hown : (Act.call p code).isOwnKan = true
        · rw [if_pos hown]
          obtain ⟨t, hlm⟩ := hk acts p code [] rfl hown
          rw [hlm]; rfl
        · rw [if_neg hown]
          unfold Act.isOwnKan at hown
          rw [if_neg hown] at hkind
          obtain ⟨q0, u0, hlm, _, _⟩ := ph.post e.curr_eq e.turn_eq hkind
          rw [hlm]; rfl
      have hset : ∀ q, (Act.call p code).newSet q = if p = q ∧ is_kakan code = false then 1 else 0 := fun q => rfl
      refine ⟨?_, ?_⟩
      · intro q hq
        have h1 := ih.size q hq
        unfold extra at h1 ⊢
        rw [hl, setsOf_snoc, e.state_eq, hset, holder_call]
        rw [hbefore] at h1
        show sum34 (e.ht' q) + _ = _
        by_cases hqp : q = p
        · subst hqp
          rw [hself]
          rcases hck with ⟨_, k2, k3, k4, k5⟩ | ⟨_, k2, k3, k4, k5⟩ | ⟨_, k2, k3, k4, k5⟩ | ⟨_, k2, k3, k4, k5⟩ <;>
            simp [k2] at h1 <;> simp [k3, k4, k5] <;> omega
        · rw [hoth q hqp]
          have hpq : ¬ p = q := fun h => hqp h.symm
          rcases hck with ⟨_, k2, k3, k4, k5⟩ | ⟨_, k2, k3, k4, k5⟩ | ⟨_, k2, k3, k4, k5⟩ | ⟨_, k2, k3, k4, k5⟩ <;>
            simp [k2, hpq] at h1 <;> simp [k3, hpq] <;> omega
      · rw [hl, holder_call]
        rw [hbefore] at hcnt
        have hd1 : (Act.call p code).isDraw = false := rfl
        have hd2 : (Act.call p code).isDiscard = false := rfl
        simp only [List.countP_append, List.countP_singleton, hd1, hd2]
        rcases hck with ⟨k1, k2, k3, k4, k5⟩ | ⟨k1, k2, k3, k4, k5⟩ | ⟨k1, k2, k3, k4, k5⟩ | ⟨k1, k2, k3, k4, k5⟩ <;>
          simp [k2] at hcnt <;> simp [k1, k2, k3] <;> omega

theorem sum34_pos {f : Nat → Int} (h : 0 < sum34 f) : ∃ k < 34, f k ≠ 0 := by
  apply Classical.byContradiction
  intro hn
  have : sum34 f = sum34 (fun _ => 0) := sum34_congr (fun k hk => Classical.byContradiction (fun h0 => hn ⟨k, hk, h0⟩))
  rw [this] at h
  exact absurd h (by decide)

theorem sum34_nonneg {f : Nat → Int} (h : ∀ k < 34, 0 ≤ f k) : 0 ≤ sum34 f := by
  have key : ∀ l : List Nat, (∀ k ∈ l, k < 34) → 0 ≤ (l.map f).sum := by
    intro l
    induction l with
    | nil => intro _; simp
    | cons x xs ih =>
      intro hl
      have h1 := h x (hl x (by simp))
      have h2 := ih (fun k hk => hl k (by simp [hk]))
      simp only [List.map_cons, List.sum_cons]
      omega
  exact key (List.range 34) (fun k hk => List.mem_range.1 hk)

/-- at most four sets each, and always a tile in hand -/
theorem sets_le {est : Estimate} {sh : List Int → Except PyErr Int} {g : GameInfo} {a : InitAttr}
    {c : RoundCfg} {s0 : RoundSt} (hi : initRound est sh g a = .ok (c, s0))
    {acts : List Act} {s : RoundSt} (hr : Reached c s0 acts s) (hs : Sizes acts s) (p : Nat) (hp : p < 4) :
    setsOf p acts ≤ 4 ∧ ∃ k < 34, s.hand_tensors p k ≠ 0 := by
  have h1 := hs.size p hp
  have h2 : 0 ≤ sum34 (s.hand_tensors p) := sum34_nonneg (fun k hk => hand_nonneg hi hr p k (by omega))
  have h3 : extra acts p ≤ 1 := by unfold extra; split <;> omega
  have h4 : setsOf p acts ≤ 4 := by omega
  exact ⟨h4, sum34_pos (by omega)⟩

theorem tokens_le {acts : List Act} (hp : ∀ p c, Act.call p c ∈ acts → p < 4) :
    (acts.map Act.tokenCount).sum ≤ acts.countP Act.isDiscard + acts.countP Act.isOwnKan +
      (setsOf 0 acts + setsOf 1 acts + setsOf 2 acts + setsOf 3 acts) + acts.countP Act.isAccept + acts.countP Act.isDora := by
  induction acts with
  | nil => simp [setsOf]
  | cons x xs ih =>
    have ih := ih (fun p c h => hp p c (by simp [h]))
    have key : x.tokenCount ≤ (if x.isDiscard = true then 1 else 0) + (if x.isOwnKan = true then 1 else 0) +
        (x.newSet 0 + x.newSet 1 + x.newSet 2 + x.newSet 3) + (if x.isAccept = true then 1 else 0) +
        (if x.isDora = true then 1 else 0) := by
      cases x with
      | call p c =>
        have := hp p c (by simp)
        simp only [Act.tokenCount, Act.newSet, Act.isOwnKan, Bool.or_eq_true]
        by_cases hk : is_kakan c = true
        · simp [hk]; omega
        · have hk : is_kakan c = false := by simpa using hk
          have : p = 0 ∨ p = 1 ∨ p = 2 ∨ p = 3 := by omega
          rcases this with rfl | rfl | rfl | rfl <;> simp [hk] <;> omega
      | _ => simp [Act.tokenCount, Act.isDiscard, Act.isOwnKan, Act.newSet, Act.isAccept, Act.isDora]
    simp only [List.map_cons, List.sum_cons, List.countP_cons, setsOf] at ih ⊢
    omega

theorem chiPon_le {acts : List Act} (hp : ∀ p c, Act.call p c ∈ acts → p < 4)
    (hw : ∀ p c, Act.call p c ∈ acts → WellFormed c) :
    acts.countP Act.isChiPon ≤ setsOf 0 acts + setsOf 1 acts + setsOf 2 acts + setsOf 3 acts := by
  induction acts with
  | nil => simp
  | cons x xs ih =>
    have ih := ih (fun p c h => hp p c (by simp [h])) (fun p c h => hw p c (by simp [h]))
    have key : (if x.isChiPon = true then 1 else 0) ≤ x.newSet 0 + x.newSet 1 + x.newSet 2 + x.newSet 3 := by
      cases x with
      | call p c =>
        have h4 := hp p c (by simp)
        by_cases hcp : (Act.call p c).isChiPon = true
        · have hk : is_kakan c = false := by
            simp only [Act.isChiPon, Bool.or_eq_true] at hcp
            by_cases hc : is_chi c = true
            · exact (chi_not_kan hc).1
            · have hc : is_chi c = false := by simpa using hc
              have := (wf_pon c hc (by simpa [hc] using hcp) (hw p c (by simp))).2.1
              rw [← Bool.not_eq_true, is_kakan_iff]
              omega
          simp only [if_pos hcp, Act.newSet, hk, and_true]
          have : p = 0 ∨ p = 1 ∨ p = 2 ∨ p = 3 := by omega
          rcases this with rfl | rfl | rfl | rfl <;> simp
        · simp [hcp]
      | _ => simp [Act.isChiPon]
    simp only [List.countP_cons, setsOf, List.map_cons, List.sum_cons] at ih ⊢
    omega

/-- what holds in every round that is really played -/
structure Spec.Playable (a : InitAttr) (acts : List Act) : Prop where
  /-- closed and added kans are made by the player who has just drawn -/
  kans : KansByDrawer acts
  /-- melds are logged in the documented format -/
  codes : ∀ p c, Act.call p c ∈ acts → WellFormed c
  /-- four scores -/
  scores : ∀ sc, a.ten = .ok sc → sc.length = 4
  /-- at most four players are in riichi -/
  riichi : acts.countP Act.isAccept ≤ 4

theorem sum34_addKind (f : Nat → Int) (t : Nat) (d : Int) (ht : t < 136) :
    sum34 (addAt f [t / 4] d) = sum34 f + d := by
  rw [← sum34_addAt f t d ht]
  apply sum34_congr
  intro k hk
  unfold addAt
  simp only [mem_tile2idx, inSlot_kind t k hk, List.mem_singleton]
  split <;> split <;> omega

/-- every draw and every new indicator takes one of the 83 tiles left after the deal -/
theorem remaining_reached {est : Estimate} {sh : List Int → Except PyErr Int} {g : GameInfo} {a : InitAttr}
    {c : RoundCfg} {s0 : RoundSt} (hi : initRound est sh g a = .ok (c, s0)) {acts : List Act} {s : RoundSt}
    (hr : Reached c s0 acts s) :
    sum34 s.remaining_tiles + acts.countP Act.isDraw + acts.countP Act.isDora = 83 := by
  obtain ⟨d⟩ := initRound_ok hi
  refine hr.induct (P := fun acts s => sum34 s.remaining_tiles + acts.countP Act.isDraw + acts.countP Act.isDora = 83) ?_ ?_
  · rw [congrArg RoundSt.remaining_tiles d.state_eq]
    show sum34 (addAt (countTiles (d.hai 0 ++ d.hai 1 ++ d.hai 2 ++ d.hai 3) remainingTiles (-1)) (tile2idx d.dora0) (-1)) + _ + _ = _
    rw [sum34_addAt _ _ _ d.dora_lt, sum34_countTiles _ _ _ (by
      intro t ht
      simp only [List.mem_append] at ht
      rcases ht with ((h | h) | h) | h <;> exact d.hai_lt _ _ h), sum34_remainingTiles]
    simp [d.hai_len 0 (by omega), d.hai_len 1 (by omega), d.hai_len 2 (by omega), d.hai_len 3 (by omega)]
  · intro acts s act s' _ ih he
    cases he with
    | @dora t token ht htok =>
      show sum34 (addAt s.remaining_tiles [t / 4] (-1)) + _ + _ = _
      rw [sum34_addKind _ _ _ ht]
      simp [List.countP_append, List.countP_singleton, Act.isDraw, Act.isDora] at ih ⊢
      omega
    | declare => simpa [List.countP_append, List.countP_singleton, Act.isDraw, Act.isDora] using ih
    | accept => simpa [List.countP_append, List.countP_singleton, Act.isDraw, Act.isDora] using ih
    | call e =>
      rw [e.state_eq]
      simpa [List.countP_append, List.countP_singleton, Act.isDraw, Act.isDora] using ih
    | @draw p t _ hp e =>
      rw [e.state_eq]
      show sum34 (addAt s.remaining_tiles (tile2idx t) (-1)) + _ + _ = _
      rw [sum34_addAt _ _ _ e.tile_lt]
      simp [List.countP_append, List.countP_singleton, Act.isDraw, Act.isDora] at ih ⊢
      omega
    | discard hp e =>
      rw [e.state_eq]
      show sum34 s.remaining_tiles + _ + _ = _
      simpa [List.countP_append, List.countP_singleton, Act.isDraw, Act.isDora] using ih

theorem accepted_final {est : Estimate} {sh : List Int → Except PyErr Int} {g : GameInfo} {a : InitAttr}
    {evs : List Ev} {s : RoundSt} (h : processRound est sh g a evs = .ok s) : finalOk s = true := by
  simp only [processRound, bind_ok] at h
  obtain ⟨⟨c, s0⟩, h1, ⟨s1, res⟩, h2, h3⟩ := h
  cases res with
  | none => simp at h3
  | some rest =>
    simp only [bind_ok, pure_ok, pyAssert_ok] at h3
    obtain ⟨_, h4, _, h5, rfl⟩ := h3
    exact h5

/-- the number of tokens of an accepted round, up to the number of riichi sticks paid -/
theorem tokens_bound {est : Estimate} {sh : List Int → Except PyErr Int} {g : GameInfo} {a : InitAttr}
    {c : RoundCfg} {s0 : RoundSt} (hi : initRound est sh g a = .ok (c, s0))
    {acts : List Act} {s : RoundSt} (hr : Reached c s0 acts s) (hf : finalOk s = true) (hk : KansByDrawer acts)
    (hw : ∀ p c, Act.call p c ∈ acts → WellFormed c) :
    s.encoding_tokens.length ≤ 115 + acts.countP Act.isAccept := by
  have hcall : ∀ p c, Act.call p c ∈ acts → p < 4 := by
    intro p c hm
    obtain ⟨pre, post, rfl⟩ := List.append_of_mem hm
    obtain ⟨s1, s2, _, he, _, _⟩ := hr.at
    cases he with
    | call e => exact e.player_lt
  have hs := sizes_reached hi hr hk hw
  have h83 := remaining_reached hi hr
  have hle : 0 ≤ sum34 s.remaining_tiles := sum34_nonneg (fun k hk => by
    unfold finalOk at hf
    simp only [Bool.and_eq_true, List.all_eq_true, List.mem_range, decide_eq_true_eq] at hf
    exact hf.1 k (by omega))
  rw [C44_count hi hr]
  have h1 := tokens_le hcall
  have h2 := chiPon_le hcall hw
  have h3 := hs.count
  have s0 := (sets_le hi hr hs 0 (by omega)).1
  have s1 := (sets_le hi hr hs 1 (by omega)).1
  have s2 := (sets_le hi hr hs 2 (by omega)).1
  have s3 := (sets_le hi hr hs 3 (by omega)).1
  omega

theorem obj_player_lt {c : RoundCfg} {s0 : RoundSt} (h0 : s0.stateObj = none ∧ s0.halfturns = [])
    {acts : List Act} {s : RoundSt} (hr : Reached c s0 acts s) :
    (∀ o, s.stateObj = some o → o.player < 4) ∧ ∀ h ∈ s.halfturns, h.obj.player < 4 := by
  refine hr.induct (P := fun _ s => (∀ o, s.stateObj = some o → o.player < 4) ∧ ∀ h ∈ s.halfturns, h.obj.player < 4)
    ⟨by simp [h0.1], by simp [h0.2]⟩ ?_
  intro acts s act s' hr ih he
  cases he with
  | dora => exact ih
  | declare h1 h2 h3 h4 h5 => exact ⟨ih.1, forall_obj_set (P := fun o => o.player < 4) h3 (obj_markReach _) ih.2⟩
  | accept => exact ih
  | @draw p t _ hp e =>
    rw [e.state_eq]
    refine ⟨?_, ?_⟩
    · intro o ho
      have : o = mkStateObj c (drawTile s p t) p := (Option.some.inj ho).symm
      subst this
      exact hp
    · intro h hh
      rcases List.mem_append.1 hh with hh | hh
      · exact ih.2 h hh
      · simp only [List.mem_singleton] at hh
        subst hh
        exact hp
  | @discard p t _ hp e =>
    rw [e.state_eq]
    refine ⟨ih.1, ?_⟩
    intro h hh
    rcases List.mem_append.1 hh with hh | hh
    · exact ih.2 h hh
    · simp only [List.mem_cons, List.not_mem_nil, or_false] at hh
      rcases hh with rfl | rfl <;> exact ih.1 e.o e.obj_eq
  | @call p code _ e =>
    rw [e.state_eq]
    refine ⟨?_, ?_⟩
    · intro o ho
      have : o = nakiObj c s code p := (Option.some.inj ho).symm
      subst this
      exact e.player_lt
    · intro h hh
      rcases List.mem_append.1 hh with hh | hh
      · exact forall_obj_set (P := fun o => o.player < 4) e.turn_eq (obj_mark _ _) ih.2 h hh
      · unfold chankanTurn at hh
        split at hh
        · simp only [List.mem_singleton] at hh
          subst hh
          exact e.player_lt
        · simp at hh

theorem acts_of_events {evs : List Ev} {acts : List Act} {rest : List Ev} (h1 : evs = evs.take acts.length ++ rest)
    (h2 : (evs.take acts.length).map Ev.act = acts.map some) (h3 : ∀ e ∈ rest, ∃ w sc, e = .result w (.ok sc)) :
    evs.filterMap Ev.act = acts := by
  rw [h1, List.filterMap_append]
  have e1 : rest.filterMap Ev.act = [] := by
    rw [List.filterMap_eq_nil_iff]
    intro e he
    obtain ⟨w, sc, rfl⟩ := h3 e he
    rfl
  have e2 : ∀ (l : List Ev) (acts : List Act), l.map Ev.act = acts.map some → l.filterMap Ev.act = acts := by
    intro l
    induction l with
    | nil =>
      intro acts h
      cases acts with
      | nil => rfl
      | cons => simp at h
    | cons x xs ih =>
      intro acts h
      cases acts with
      | nil => simp at h
      | cons y ys =>
        simp only [List.map_cons, List.cons.injEq] at h
        rw [List.filterMap_cons, h.1]
        simp [ih ys h.2]
  rw [e1, List.append_nil, e2 _ _ h2]

/-- C101: every accepted round that is really played can be turned into tensors, for all models. -/
theorem C101_builds {est : Estimate} {sh : List Int → Except PyErr Int} {g : GameInfo} {a : InitAttr} {evs : List Ev}
    {s : RoundSt} (h : processRound est sh g a evs = .ok s) (hp : Playable a (evs.filterMap Ev.act)) (v : Variant) :
    ∃ d c p, buildTensors v s s.halfturns s.encoding_tokens = .ok (d, c, p) := by
  rw [C101_exact h]
  obtain ⟨c, s0, acts, rest, h1, h3, h4, h5, h2⟩ := accepted_reached h
  rw [acts_of_events h3 h4 h5] at hp
  obtain ⟨d⟩ := initRound_ok h1
  have hl : Lengths s0.scores.length c.parent_rounds_remaining s := lengths_reached ⟨rfl,
    by rw [congrArg RoundSt.stateObj d.state_eq]; simp, by rw [congrArg RoundSt.halfturns d.state_eq]; simp⟩ h2
  have htok := tokens_bound h1 h2 (accepted_final h) hp.kans hp.codes
  have hrii := hp.riichi
  have hs := sizes_reached h1 h2 hp.kans hp.codes
  have hpl := obj_player_lt ⟨by rw [congrArg RoundSt.stateObj d.state_eq], by rw [congrArg RoundSt.halfturns d.state_eq]⟩ h2
  intro t ht _
  refine ⟨?_, ?_, ?_⟩
  · have h6 := (C45_positions h1 h2).2 t ht
    have : t.position = t.encodingIdx := by cases t <;> rfl
    omega
  · rw [hl.now, congrArg RoundSt.scores d.state_eq]
    exact hp.scores _ d.scores_eq
  · intro _
    obtain ⟨k, hk, hk'⟩ := (sets_le h1 h2 hs t.obj.player (hpl.2 t ht)).2
    exact ⟨k, by omega, hk'⟩

/-- a round that is accepted and really played -/
def Spec.PlayedRound (s : RoundSt) : Prop :=
  ∃ (est : Estimate) (sh : List Int → Except PyErr Int) (g : GameInfo) (a : InitAttr) (evs : List Ev),
    processRound est sh g a evs = .ok s ∧ Playable a (evs.filterMap Ev.act)

theorem mapM_total {α β : Type} (f : α → Except PyErr β) : ∀ l : List α, (∀ x ∈ l, ∃ y, f x = .ok y) → ∃ ys, l.mapM f = .ok ys
  | [], _ => ⟨[], rfl⟩
  | x :: xs, h => by
    obtain ⟨y, hy⟩ := h x (by simp)
    obtain ⟨ys, hys⟩ := mapM_total f xs (fun x hx => h x (by simp [hx]))
    exact ⟨y :: ys, by rw [List.mapM_cons, hy, hys]; rfl⟩

/-- the tensors of a batch of played rounds can be built -/
theorem build_played {v : Variant} {games : List (List RoundSt)} (hs : ∀ s ∈ games.flatten, PlayedRound s)
    (hne : games.flatten ≠ []) : ∃ d c p, prepareBatches v (gameTurns games) (gameTokens games) = .ok (d, c, p) := by
  unfold prepareBatches
  rw [zipRounds_games]
  obtain ⟨l, hl⟩ := mapM_total (fun r => buildTensors v r.1.1 r.1.2 r.2)
    (games.flatten.map (fun s => ((s, s.halfturns), s.encoding_tokens))) (by
      intro r hr
      obtain ⟨s, hsm, rfl⟩ := List.mem_map.1 hr
      obtain ⟨est, sh, g, a, evs, h1, h2⟩ := hs s hsm
      obtain ⟨d, c, p, hb⟩ := C101_builds h1 h2 v
      exact ⟨_, hb⟩)
  rw [hl]
  have hlen : l ≠ [] := by
    intro h0
    rw [h0] at hl
    have hp := mapM_pairs hl
    generalize hg : games.flatten.map (fun s => ((s, s.halfturns), s.encoding_tokens)) = m at hp
    cases hp
    exact hne (List.map_eq_nil_iff.1 hg)
  show ∃ d c p, stackBatches v _ _ _ = _
  unfold stackBatches
  rw [if_neg (by simp [hlen])]
  exact ⟨_, _, _, rfl⟩

/-- C101: from played games to logits and loss nothing raises: the tensors of any non-empty batch of games can be built
and the network accepts them. -/
theorem C101_pipeline {v : Variant} {games : List (List RoundSt)} (hs : ∀ s ∈ games.flatten, PlayedRound s)
    (hne : games.flatten ≠ []) (gelu : ℝ → ℝ) (params : Net.Params v) (sample : Bool) (size : Nat) {perm : Nat → List Nat}
    (hp : ∀ n, (perm n).Perm (List.range n)) :
    ∃ d c p out, prepareBatches v (gameTurns games) (gameTokens games) = .ok (d, c, p) ∧
      forward sample size perm (Net.runRows v gelu params) d c p = .ok out := by
  obtain ⟨d, c, p, hb⟩ := build_played (v := v) hs hne
  obtain ⟨out, ho⟩ := C100_network_accepts (fun s h => by
    obtain ⟨est, sh, g, a, evs, h1, _⟩ := hs s h
    exact ⟨est, sh, g, a, evs, h1⟩) hb gelu params sample size hp
  exact ⟨d, c, p, out, hb, ho⟩

/-- a played round -/
example : ∃ s, PlayedRound s := by
  obtain ⟨s, hs, _⟩ := okAnd_ok (passRound_tensors .basic)
  refine ⟨s, _, _, _, _, _, hs, ?_, ?_, ?_, by decide⟩
  · intro pre p c post he _
    have : Act.call p c ∈ [Act.draw 0 120, Act.discard 0 120] := by
      have h2 : [Act.draw 0 120, Act.discard 0 120] = pre ++ Act.call p c :: post := he
      rw [h2]; simp
    simp at this
  · intro p c h
    have : Act.call p c ∈ [Act.draw 0 120, Act.discard 0 120] := h
    simp at this
  · intro sc h
    cases h
    rfl

/-- a log in which the riichi stick is paid 149 times -/
def longRound : Except PyErr RoundSt :=
  processRound (fun q => .ok q.config.is_tsumo) farAway ⟨0⟩ deal
    ([.draw 0 (.ok 120), .discard 0 (.ok 120)] ++ List.replicate 149 (.reach (.ok 0) (.ok false)) ++
      [.draw 1 (.ok 121), .discard 1 (.ok 121), .result false (.ok [])])

/-- C101: without such limits it fails: the parser accepts logs with more events than the networks have positions for. -/
theorem C101_limit_violated (v : Variant) : ∃ est sh g a evs s, processRound est sh g a evs = .ok s ∧
    ¬ ∃ d c p, buildTensors v s s.halfturns s.encoding_tokens = .ok (d, c, p) := by
  have h : okAnd longRound (fun s => s.halfturns.any (fun t => t.isDiscard && decide (150 ≤ t.encodingIdx))) = true := by
    decide +kernel
  obtain ⟨s, hs, h1⟩ := okAnd_ok h
  refine ⟨_, _, _, _, _, s, hs, ?_⟩
  rw [C101_exact hs]
  intro hx
  obtain ⟨t, ht, h2⟩ := List.any_eq_true.1 h1
  simp only [Bool.and_eq_true, decide_eq_true_eq] at h2
  have hsam : sampled t := by cases t <;> simp_all [HalfTurn.isDiscard, sampled]
  have := (hx t ht hsam).1
  omega

end MJ
