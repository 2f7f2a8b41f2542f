import Verif.Spec.Legal
import Verif.Props.Builds
import Verif.Props.RoundSpecial
/-!
C115: no legally played round is rejected.
-/
namespace MJ
open Code Spec

/-! ### counting tiles -/

theorem kindCount_counts (l : List Nat) (k : Nat) :
    kindCount l k = l.count (4 * k) + l.count (4 * k + 1) + l.count (4 * k + 2) + l.count (4 * k + 3) := by
  induction l with
  | nil => simp [kindCount]
  | cons x l ih =>
    have h : kindCount (x :: l) k = kindCount l k + if x / 4 = k then 1 else 0 := by
      simp [kindCount, List.countP_cons]
    rw [h, ih]
    simp only [List.count_cons, beq_iff_eq]
    by_cases h0 : x / 4 = k
    · have : x = 4 * k ∨ x = 4 * k + 1 ∨ x = 4 * k + 2 ∨ x = 4 * k + 3 := by omega
      rcases this with rfl | rfl | rfl | rfl <;> simp_all <;> omega
    · rw [if_neg h0, if_neg (by omega), if_neg (by omega), if_neg (by omega), if_neg (by omega)]
      omega

theorem slotCount_red (l : List Nat) (hl : ∀ t ∈ l, t < 136) (j : Nat) (hj : j < 3) :
    slotCount l (34 + j) = l.count (16 + 36 * j) := by
  unfold slotCount
  rw [List.count_eq_countP]
  apply List.countP_congr
  intro t ht
  have := hl t ht
  have hj : j = 0 ∨ j = 1 ∨ j = 2 := by omega
  rcases hj with rfl | rfl | rfl <;> simp [InSlot] <;> omega

theorem count_drawn (acts : List Act) (hp : ∀ p t, Act.draw p t ∈ acts → p < 4) (t : Nat) :
    (collect Act.drawnByAny acts).count t = (collect (Act.drawn 0) acts).count t + (collect (Act.drawn 1) acts).count t +
      (collect (Act.drawn 2) acts).count t + (collect (Act.drawn 3) acts).count t := by
  induction acts with
  | nil => rfl
  | cons x l ih =>
    have ih := ih (fun p t h => hp p t (by simp [h]))
    simp only [collect, List.flatMap_cons, List.count_append] at ih ⊢
    cases x with
    | draw p u =>
      have : p < 4 := hp p u (by simp)
      have : p = 0 ∨ p = 1 ∨ p = 2 ∨ p = 3 := by omega
      rcases this with rfl | rfl | rfl | rfl <;> simp [Act.drawnByAny, Act.drawn] <;> omega
    | _ => simp [Act.drawnByAny, Act.drawn]; omega

/-- what others show is what they lose -/
theorem count_shown (acts : List Act) (hp : ∀ x ∈ acts, x.who < 4) (p t : Nat) (hp4 : p < 4) :
    (collect (Act.shownTo p) acts).count t + (collect (Act.loses p) acts).count t =
      (collect (Act.loses 0) acts).count t + (collect (Act.loses 1) acts).count t +
      (collect (Act.loses 2) acts).count t + (collect (Act.loses 3) acts).count t := by
  induction acts with
  | nil => rfl
  | cons x l ih =>
    have ih := ih (fun y h => hp y (by simp [h]))
    have hx := hp x (by simp)
    simp only [collect, List.flatMap_cons, List.count_append] at ih ⊢
    have key : (x.shownTo p).count t + (x.loses p).count t = (x.loses 0).count t + (x.loses 1).count t +
        (x.loses 2).count t + (x.loses 3).count t := by
      have h4 : p = 0 ∨ p = 1 ∨ p = 2 ∨ p = 3 := by omega
      cases x with
      | discard q u =>
        have : q = 0 ∨ q = 1 ∨ q = 2 ∨ q = 3 := by simp only [Act.who] at hx; omega
        rcases h4 with rfl | rfl | rfl | rfl <;> rcases this with rfl | rfl | rfl | rfl <;>
          simp [Act.shownTo, Act.loses, Act.discarded, Act.exposed]
      | call q u =>
        have : q = 0 ∨ q = 1 ∨ q = 2 ∨ q = 3 := by simp only [Act.who] at hx; omega
        rcases h4 with rfl | rfl | rfl | rfl <;> rcases this with rfl | rfl | rfl | rfl <;>
          simp [Act.shownTo, Act.loses, Act.discarded, Act.exposed]
      | _ => simp [Act.shownTo, Act.loses, Act.discarded, Act.exposed]
    omega

/-! ### legal rounds -/

theorem holds_not_unseen {hai : Nat → List Nat} {first : Nat} {acts : List Act} {p t : Nat} (hp : p < 4)
    (hu : Unseen hai first acts t) : ¬ Holds hai acts p t := by
  rintro (⟨h1, _⟩ | ⟨pre, post, rfl, _⟩)
  · exact hu.2.1 p hp h1
  · refine hu.2.2.2.1 ?_
    simp [collect, Act.drawnByAny]

theorem mayFollow_consistent {hai : Nat → List Nat} {first : Nat} {acts : List Act} {x : Act}
    (h : MayFollow hai first acts x) : Consistent hai acts x := by
  cases x with
  | dora t => exact h.1
  | draw p t => exact ⟨h.1, h.2.1, h.2.2.1, holds_not_unseen h.1 h.2.2⟩
  | _ => exact h

theorem Spec.LegalRound.consistent {hai : Nat → List Nat} {first : Nat} {acts : List Act}
    (h : LegalRound hai first acts) : ConsistentRound hai acts :=
  fun pre x post e => mayFollow_consistent (h pre x post e)

theorem Spec.ConsistentRound.init {hai : Nat → List Nat} {acts : List Act} {x : Act}
    (h : ConsistentRound hai (acts ++ [x])) : ConsistentRound hai acts ∧ Consistent hai acts x :=
  ⟨fun pre y post e => h pre y (post ++ [x]) (by simp [e]), h acts x [] rfl⟩

theorem Spec.ConsistentRound.induct {hai : Nat → List Nat} {P : List Act → Prop} (h0 : P [])
    (hs : ∀ acts x, ConsistentRound hai acts → Consistent hai acts x → P acts → P (acts ++ [x])) :
    ∀ acts, ConsistentRound hai acts → P acts := by
  refine snoc_induct (fun _ => h0) ?_
  intro l a ih h
  exact hs l a h.init.1 h.init.2 (ih h.init.1)

theorem consistent_who {hai : Nat → List Nat} {acts : List Act} {x : Act} (h : Consistent hai acts x) :
    x.who < 4 := by
  cases x with
  | dora t => simp [Act.who]
  | _ => exact h.1

theorem Spec.ConsistentRound.who {hai : Nat → List Nat} {acts : List Act} (h : ConsistentRound hai acts) :
    ∀ x ∈ acts, x.who < 4 := by
  intro x hx
  obtain ⟨pre, post, rfl⟩ := List.append_of_mem hx
  exact consistent_who (h pre x post rfl)

theorem Spec.ConsistentRound.codes {hai : Nat → List Nat} {acts : List Act} (h : ConsistentRound hai acts) :
    ∀ p c, Act.call p c ∈ acts → WellFormed c := by
  intro p c hx
  obtain ⟨pre, post, rfl⟩ := List.append_of_mem hx
  obtain ⟨_, m, hv, rfl, _⟩ := h pre _ post rfl
  exact (C93_covers _).2 ⟨m, hv, rfl⟩

theorem own_iff (m : LogMeld) (hv : m.Valid) : (is_ankan m.encode || is_kakan m.encode) = m.own := by
  obtain ⟨_, ⟨_, _, h3, _, h5⟩, _⟩ := C93_tiles m hv
  rw [h3, h5]
  cases m <;> rfl

theorem Spec.ConsistentRound.kans {hai : Nat → List Nat} {acts : List Act} (h : ConsistentRound hai acts) :
    KansByDrawer acts := by
  intro pre p c post e hk
  obtain ⟨_, m, hv, rfl, _, hm⟩ := h pre _ post e
  rw [own_iff m hv] at hk
  rw [if_pos hk] at hm
  exact hm

theorem Spec.LegalRound.init {hai : Nat → List Nat} {first : Nat} {acts : List Act} {x : Act}
    (h : LegalRound hai first (acts ++ [x])) : LegalRound hai first acts ∧ MayFollow hai first acts x :=
  ⟨fun pre y post e => h pre y (post ++ [x]) (by simp [e]), h acts x [] rfl⟩

theorem Spec.LegalRound.induct {hai : Nat → List Nat} {first : Nat} {P : List Act → Prop} (h0 : P [])
    (hs : ∀ acts x, LegalRound hai first acts → MayFollow hai first acts x → P acts → P (acts ++ [x])) :
    ∀ acts, LegalRound hai first acts → P acts := by
  refine snoc_induct (fun _ => h0) ?_
  intro l a ih h
  exact hs l a h.init.1 h.init.2 (ih h.init.1)

/-- no tile comes from the deal, the wall and the indicators twice -/
theorem Spec.LegalRound.unique {hai : Nat → List Nat} {first : Nat} (hd : FairDeal hai first) (t : Nat) :
    ∀ acts, LegalRound hai first acts → (hai 0).count t + (hai 1).count t + (hai 2).count t + (hai 3).count t +
      [first].count t + (collect Act.drawnByAny acts).count t + (collect Act.doras acts).count t ≤ 1 := by
  refine Spec.LegalRound.induct ?_ ?_
  · have := List.nodup_iff_count.1 hd.distinct t
    simp only [List.count_append] at this
    simp only [collect, List.flatMap_nil, List.count_nil]
    omega
  · intro acts x _ hx ih
    rw [collect_snoc, collect_snoc, List.count_append, List.count_append]
    have key : ∀ u, Unseen hai first acts u → t = u →
        (hai 0).count t + (hai 1).count t + (hai 2).count t + (hai 3).count t + [first].count t +
          (collect Act.drawnByAny acts).count t + (collect Act.doras acts).count t = 0 := by
      rintro u ⟨_, h1, h2, h3, h4⟩ rfl
      rw [List.count_eq_zero.2 (h1 0 (by omega)), List.count_eq_zero.2 (h1 1 (by omega)),
        List.count_eq_zero.2 (h1 2 (by omega)), List.count_eq_zero.2 (h1 3 (by omega)), List.count_eq_zero.2 h3,
        List.count_eq_zero.2 h4, List.count_eq_zero.2 (by simpa using h2)]
    cases x with
    | dora u =>
      by_cases htu : t = u
      · have := key u hx htu
        simp [Act.drawnByAny, Act.doras, htu] at this ⊢
        omega
      · have e : [u].count t = 0 := List.count_eq_zero.2 (by simpa using htu)
        simp only [Act.drawnByAny, Act.doras, List.count_nil, e]
        omega
    | draw p u =>
      by_cases htu : t = u
      · have := key u hx.2.2 htu
        simp [Act.drawnByAny, Act.doras, htu] at this ⊢
        omega
      · have e : [u].count t = 0 := List.count_eq_zero.2 (by simpa using htu)
        simp only [Act.drawnByAny, Act.doras, List.count_nil, e]
        omega
    | _ => simpa [Act.drawnByAny, Act.doras] using ih

theorem tiles_nodup (m : LogMeld) (hv : m.Valid) : m.tiles.1.Nodup := by
  cases m with
  | chi src k x y z w =>
    obtain ⟨h1, h2, h3, h4, h5, h6, h7⟩ := hv
    have hn : [4 * k + x, 4 * (k + 1) + y, 4 * (k + 2) + z].Nodup := by
      simp only [List.nodup_cons, List.mem_cons, List.not_mem_nil, or_false, not_false_eq_true, List.nodup_nil, and_true]
      omega
    exact hn.sublist (List.eraseIdx_sublist _ _)
  | pon src k u w =>
    have hn : (LogMeld.copies k).Nodup := by simp [LogMeld.copies]
    exact (hn.sublist (List.eraseIdx_sublist _ _)).sublist (List.eraseIdx_sublist _ _)
  | kakan src k u w => simp [LogMeld.tiles]
  | minkan src t =>
    have hn : (LogMeld.copies (t / 4)).Nodup := by simp [LogMeld.copies]
    exact hn.sublist List.filter_sublist
  | ankan t => simp [LogMeld.tiles, LogMeld.copies]

theorem tiles_lt (m : LogMeld) (hv : m.Valid) : (∀ t ∈ m.tiles.1, t < 136) ∧ ∀ t ∈ m.tiles.2.toList, t < 136 := by
  have hsub : ∀ k < 34, ∀ t ∈ LogMeld.copies k, t < 136 := by
    intro k hk t ht
    simp only [LogMeld.copies, List.mem_cons, List.not_mem_nil, or_false] at ht
    omega
  cases m with
  | chi src k x y z w =>
    obtain ⟨h1, h2, h3, h4, h5, h6, h7⟩ := hv
    have hl : ∀ t ∈ [4 * k + x, 4 * (k + 1) + y, 4 * (k + 2) + z], t < 136 := by
      intro t ht
      simp only [List.mem_cons, List.not_mem_nil, or_false] at ht
      omega
    refine ⟨fun t ht => hl t ((List.eraseIdx_sublist _ _).subset ht), fun t ht => hl t ?_⟩
    simp only [LogMeld.tiles, Option.mem_toList] at ht
    exact List.mem_of_getElem? ht
  | pon src k u w =>
    obtain ⟨h1, h2, h3, h4⟩ := hv
    have hl : ∀ t ∈ (LogMeld.copies k).eraseIdx u, t < 136 := fun t ht => hsub k h2 t ((List.eraseIdx_sublist _ _).subset ht)
    refine ⟨fun t ht => hl t ((List.eraseIdx_sublist _ _).subset ht), fun t ht => hl t ?_⟩
    simp only [LogMeld.tiles, Option.mem_toList] at ht
    exact List.mem_of_getElem? ht
  | kakan src k u w =>
    obtain ⟨h1, h2, h3, h4⟩ := hv
    refine ⟨?_, by simp [LogMeld.tiles]⟩
    intro t ht
    simp only [LogMeld.tiles, List.mem_cons, List.not_mem_nil, or_false] at ht
    omega
  | minkan src t =>
    obtain ⟨h1, h2, h3⟩ := hv
    refine ⟨fun u hu => hsub (t / 4) (by omega) u (List.mem_filter.1 hu).1, ?_⟩
    intro u hu
    simp [LogMeld.tiles] at hu
    omega
  | ankan t =>
    have h3 : t < 136 := hv
    exact ⟨fun u hu => hsub (t / 4) (by omega) u hu, by simp [LogMeld.tiles]⟩

theorem exposed_encode (m : LogMeld) (hv : m.Valid) : exposedTiles m.encode = m.tiles.1 := by
  unfold exposedTiles
  rw [(C93_tiles m hv).1]

/-- tiles dealt to or drawn by a player are either lost once or still held -/
theorem Spec.LegalRound.conserve {hai : Nat → List Nat} {first : Nat} (hd : FairDeal hai first) (p t : Nat) (hp : p < 4) :
    ∀ acts, LegalRound hai first acts →
      ((Holds hai acts p t → (hai p).count t + (collect (Act.drawn p) acts).count t = (collect (Act.loses p) acts).count t + 1) ∧
      (¬ Holds hai acts p t → (hai p).count t + (collect (Act.drawn p) acts).count t = (collect (Act.loses p) acts).count t)) := by
  refine Spec.LegalRound.induct ?_ ?_
  · have h1 := List.nodup_iff_count.1 hd.distinct t
    simp only [List.count_append] at h1
    have h2 : (hai p).count t ≤ 1 := by
      have : p = 0 ∨ p = 1 ∨ p = 2 ∨ p = 3 := by omega
      rcases this with rfl | rfl | rfl | rfl <;> omega
    have h3 : Holds hai [] p t ↔ t ∈ hai p := by simp [Holds]
    rw [h3]
    simp only [collect, List.flatMap_nil, List.count_nil]
    refine ⟨fun h => ?_, fun h => ?_⟩
    · have := List.count_pos_iff.2 h; omega
    · rw [List.count_eq_zero.2 h]
  · intro acts x hl hx ih
    rw [holds_snoc, collect_snoc, collect_snoc, List.count_append, List.count_append]
    have hnew : ∀ u q, x = .draw q u → ¬ Holds hai acts p u := by
      rintro u q rfl (⟨h1, _⟩ | ⟨pre, post, rfl, _⟩)
      · exact hx.2.2.2.1 p hp h1
      · refine hx.2.2.2.2.2.1 ?_
        simp [collect, Act.drawnByAny]
    cases x with
    | draw q u =>
      have hu := hnew u q rfl
      simp only [Act.loses, Act.discarded, Act.exposed, List.append_nil, List.not_mem_nil, not_false_eq_true, and_true,
        List.count_nil, Act.draw.injEq, Act.drawn, Nat.add_zero]
      by_cases hq : q = p
      · subst hq
        by_cases htu : u = t
        · subst htu
          have := ih.2 hu
          refine ⟨fun _ => ?_, fun h => absurd (.inr ⟨rfl, rfl⟩) h⟩
          simp
          omega
        · simpa [htu] using ih
      · simpa [hq] using ih
    | discard q u =>
      obtain ⟨_, _, hh⟩ := hx
      simp only [Act.loses, Act.discarded, Act.exposed, List.append_nil, reduceCtorEq, or_false, Act.drawn, List.count_nil,
        Nat.add_zero]
      by_cases hq : q = p
      · subst hq
        by_cases htu : u = t
        · subst htu
          have := ih.1 hh
          simp
          omega
        · have e : [u].count t = 0 := List.count_eq_zero.2 (by simpa using Ne.symm htu)
          have htu' : t ≠ u := Ne.symm htu
          simpa [htu', e] using ih
      · simpa [hq] using ih
    | call q code =>
      obtain ⟨_, m, hv, rfl, hh, _⟩ := hx
      simp only [Act.loses, Act.discarded, Act.exposed, List.nil_append, reduceCtorEq, or_false, Act.drawn, List.count_nil,
        Nat.add_zero]
      by_cases hq : q = p
      · subst hq
        rw [if_pos rfl, exposed_encode m hv]
        by_cases htu : t ∈ m.tiles.1
        · have h1 := List.count_eq_one_of_mem (tiles_nodup m hv) htu
          have := ih.1 (hh t htu)
          refine ⟨fun h => absurd htu h.2, fun _ => ?_⟩
          omega
        · rw [List.count_eq_zero.2 htu]
          simpa [htu] using ih
      · simpa [hq] using ih
    | _ => simpa [Act.loses, Act.discarded, Act.exposed, Act.drawn] using ih

/-! ### no step is refused -/

/-- melds are those of the calls -/
theorem melds_codes {c : RoundCfg} {s0 : RoundSt} (h0 : ∀ p, s0.melds p = []) {acts : List Act} {s : RoundSt}
    (hr : Reached c s0 acts s) : ∀ p, ∀ m ∈ s.melds p, Act.call p m.naki_code ∈ acts := by
  refine hr.induct (P := fun acts s => ∀ p, ∀ m ∈ s.melds p, Act.call p m.naki_code ∈ acts) ?_ ?_
  · intro p m hm; rw [h0 p] at hm; simp at hm
  · intro acts s act s' _ ih he
    have hmono : ∀ p, ∀ m ∈ s.melds p, Act.call p m.naki_code ∈ acts ++ [act] := fun p m hm => by simp [ih p m hm]
    cases he with
    | dora => exact hmono
    | declare => exact hmono
    | accept => exact hmono
    | draw hp e => rw [e.state_eq]; exact hmono
    | discard hp e => rw [e.state_eq]; exact hmono
    | @call p code _ e =>
      rw [e.state_eq]
      intro q m hm
      change m ∈ setAt s.melds p _ q at hm
      by_cases hq : q = p
      · subst hq
        rw [setAt_same] at hm
        have hm : m ∈ s.melds q ++ [e.naki] := by
          split at hm
          · exact mem_removePon hm
          · exact hm
        rcases List.mem_append.1 hm with hm | hm
        · exact hmono q m hm
        · simp only [List.mem_singleton] at hm
          subst hm
          rw [e.code_eq]
          simp
      · rw [setAt_ne _ _ _ _ hq] at hm
        exact hmono q m hm

theorem nakisToMelds_total : ∀ l : List Nat, (∀ c ∈ l, WellFormed c) → ∃ ms, nakisToMelds l = .ok ms
  | [], _ => ⟨[], rfl⟩
  | c :: l, h => by
    obtain ⟨m, hm, _⟩ := C26_melds c (h c (by simp))
    obtain ⟨ms, hms⟩ := nakisToMelds_total l (fun c hc => h c (by simp [hc]))
    exact ⟨m :: ms, by simp [nakisToMelds, hm, hms]⟩

theorem ronLoop_total {est : Estimate} (he : ∀ q, ∃ b, est q = .ok b) (player : Nat) (a : WinArgs)
    (ha : ∀ p, ∀ c ∈ a.naki_list p, WellFormed c) (sutehai : Nat → Nat → Int) (tile idx : Nat) (ck : Bool) (rh : Nat → Bool) :
    ∀ (l : List Nat) (st : (Nat → Nat → Int) × List (Option AgariDecision)),
      ∃ r, ronLoop est player a sutehai tile idx ck rh l st = .ok r
  | [], st => ⟨st, rfl⟩
  | p :: ps, st => by
    have h1 : ∃ r, ronStep est player a sutehai tile idx ck rh p st = .ok r := by
      unfold ronStep
      split
      · exact ⟨_, rfl⟩
      split
      · exact ⟨_, rfl⟩
      obtain ⟨ms, hms⟩ := nakisToMelds_total (a.naki_list p) (ha p)
      simp only [hms]
      split
      · rename_i e hq
        obtain ⟨b, hb⟩ := he _
        rw [hb] at hq
        cases hq
      · exact ⟨_, rfl⟩
      · exact ⟨_, rfl⟩
    obtain ⟨r, hr⟩ := h1
    obtain ⟨r', hr'⟩ := ronLoop_total he player a ha sutehai tile idx ck rh ps r
    exact ⟨r', by rw [ronLoop, hr]; exact hr'⟩

theorem ron_total {est : Estimate} (he : ∀ q, ∃ b, est q = .ok b) (player : Nat) (hands : Nat → Nat → Int) (a : WinArgs)
    (ha : ∀ p, ∀ c ∈ a.naki_list p, WellFormed c) (sutehai : Nat → Nat → Int) (tile : Nat) (ht : tile < 136) (ck : Bool)
    (rh : Nat → Bool) : ∃ r, evaluate_ron est player hands a sutehai tile ck rh = .ok r := by
  unfold evaluate_ron
  rw [if_pos ht]
  exact ronLoop_total he player a ha sutehai tile _ ck rh _ _

theorem tsumo_total {est : Estimate} (he : ∀ q, ∃ b, est q = .ok b) (player : Nat) (hands : Nat → Nat → Int) (a : WinArgs)
    (ha : ∀ p, ∀ c ∈ a.naki_list p, WellFormed c) (tile : Nat) (x y z : Bool) :
    ∃ r, evaluate_tsumo est player hands a tile x y z = .ok r := by
  unfold evaluate_tsumo
  obtain ⟨ms, hms⟩ := nakisToMelds_total (a.naki_list player) (ha player)
  simp only [hms]
  split
  · rename_i e hq
    obtain ⟨b, hb⟩ := he _
    rw [hb] at hq
    cases hq
  · exact ⟨_, rfl⟩
  · exact ⟨_, rfl⟩

theorem kakanOffers_total (hands : Nat → Nat → Int) (p : Nat) : ∀ l : List Naki, ∃ r, kakanOffers hands p l = .ok r
  | [] => ⟨[], rfl⟩
  | m :: l => by
    obtain ⟨r, hr⟩ := kakanOffers_total hands p l
    unfold kakanOffers
    rw [hr]
    simp only [Naki.from_kakan_info, true_or, if_true]
    split
    · exact ⟨_, rfl⟩
    · exact ⟨_, rfl⟩

theorem reachOffers_total {c : RoundCfg} (hs : ∀ l, ∃ n, c.shanten l = .ok n) (s : RoundSt) (p : Nat) :
    ∃ r, reachOffers c s p = .ok r := by
  unfold reachOffers
  split
  · obtain ⟨n, hn⟩ := hs ((List.range 34).map (s.hand_tensors p))
    rw [hn]
    exact ⟨_, rfl⟩
  · exact ⟨_, rfl⟩

theorem expose_total (p : Nat) : ∀ (l : List Nat) (hands ht : Nat → Nat → Int), l.Nodup → (∀ t ∈ l, hands p t = 1) →
    ∃ r, expose p l (hands, ht) = .ok r
  | [], _, _, _, _ => ⟨_, rfl⟩
  | e :: es, hands, ht, hn, hh => by
    rw [List.nodup_cons] at hn
    unfold expose
    rw [if_pos (hh e (by simp))]
    refine expose_total p es _ _ hn.2 ?_
    intro t ht'
    have hne : t ≠ e := by rintro rfl; exact hn.1 ht'
    have : addRow hands p [e] (-1) p t = hands p t := by simp [addRow, setAt, addAt, hne]
    rw [this]
    exact hh t (by simp [ht'])

/-- the current half-turn, after a draw or a discard -/
theorem Phase.drew {acts : List Act} {s : RoundSt} (ph : Phase acts s) {p t : Nat} (h : lastMove acts = some (.draw p t)) :
    ∃ q o e a r n, s.curr = some (.during q o e a r n) ∧ s.curr_halfturn.isSome = true ∧ s.acquired = some t := by
  have hc := ph.cur
  have ha := ph.acq
  rw [h] at hc ha
  obtain ⟨u, h1, h2, h3, h4⟩ := hc
  cases u with
  | during q o e a r n => exact ⟨q, o, e, a, r, n, by simp [RoundSt.curr, h1, h2], by simp [h1], ha⟩
  | discard => simp [HalfTurn.isDuring] at h3
  | post => simp [HalfTurn.isDuring] at h3

theorem Phase.threw {acts : List Act} {s : RoundSt} (ph : Phase acts s) {p t : Nat} (h : lastMove acts = some (.discard p t)) :
    ∃ q o e a n, s.curr = some (.post q o e a n) ∧ s.curr_halfturn.isSome = true := by
  have hc := ph.cur
  rw [h] at hc
  obtain ⟨u, h1, h2, h3, h4⟩ := hc
  cases u with
  | post q o e a n => exact ⟨q, o, e, a, n, by simp [RoundSt.curr, h1, h2], by simp [h1]⟩
  | discard => simp [HalfTurn.isPost] at h3
  | during => simp [HalfTurn.isPost] at h3

theorem step_total {est : Estimate} {sh : List Int → Except PyErr Int} {g : GameInfo} {a : InitAttr}
    {c : RoundCfg} {s0 : RoundSt} (hi : initRound est sh g a = .ok (c, s0)) (he : ∀ q, ∃ b, est q = .ok b)
    (hs : ∀ l, ∃ n, sh l = .ok n) {sc : List Int} (hsc : a.ten = .ok sc) (hsc4 : sc.length = 4)
    {hai : Nat → List Nat} {first : Nat} (hd : a.Deals hai first)
    {acts : List Act} {s : RoundSt} (hr : Reached c s0 acts s) (hl : ConsistentRound hai acts) {x : Act}
    (hx : Consistent hai acts x) : ∃ s', step c s x.entry = .ok s' := by
  obtain ⟨d⟩ := initRound_ok hi
  have hcest : c.estimate = est := by rw [d.cfg_eq]
  have hcsh : c.shanten = sh := by rw [d.cfg_eq]
  have ph := phase_reached hi hr
  have hsize := (sizes_reached hi hr hl.kans hl.codes).size
  have htab := tableOk_reached hi hr
  have hheld : ∀ p < 4, ∀ t, s.hands p t = 1 ↔ Holds hai acts p t := fun p hp t => C34_concealed hi hd.1 hr p t hp
  have hmelds : ∀ p, ∀ m ∈ s.melds p, WellFormed m.naki_code := fun p m hm =>
    hl.codes p _ (melds_codes (by rw [d.state_eq]; intro p; rfl) hr p m hm)
  have hest : ∀ q, ∃ b, c.estimate q = .ok b := by rw [hcest]; exact he
  have hsh : ∀ l, ∃ n, c.shanten l = .ok n := by rw [hcsh]; exact hs
  cases x with
  | dora t =>
    have ht : t < 136 := hx
    show ∃ s', stepDora s (.ok t) = .ok s'
    have htok := dora_token (t / 4) (by omega)
    simp only [stepDora, bind_ok, pure_ok, checkTile_ok, tile2idx_head]
    exact ⟨_, t, rfl, (), ht, _, htok, rfl⟩
  | declare p =>
    obtain ⟨hp, q, t, hlm⟩ := hx
    obtain ⟨q', o, e, ag, r, n, h1, h2, h3⟩ := ph.drew hlm
    show ∃ s', stepReach s (.ok p) (.ok true) = .ok s'
    have hdec : ∃ s1, reachDeclare s = .ok s1 := by simp [reachDeclare, h1, h3]
    obtain ⟨s1, hdec⟩ := hdec
    refine ⟨{ s1 with ippatsu := setAt s1.ippatsu p 1 }, ?_⟩
    simp only [stepReach, bind_ok, pyAssert_ok]
    refine ⟨(), h2, p, rfl, true, rfl, ?_⟩
    simp only [if_true, bind_ok, pure_ok, checkSeat_ok]
    exact ⟨s1, hdec, (), hp, rfl⟩
  | accept p =>
    obtain ⟨hp, q, t, hlm⟩ := hx
    obtain ⟨q', o, e, ag, n, h1, h2⟩ := ph.threw hlm
    have hlen : s.scores.length = 4 := by
      have h0 : Lengths 4 c.parent_rounds_remaining s0 := by
        have : d.scores = sc := by
          have := d.scores_eq
          rw [hsc] at this
          simpa using this.symm
        refine ⟨?_, ?_, ?_⟩
        · rw [d.state_eq]
          show d.scores.length = 4
          rw [this, hsc4]
        · intro o ho; rw [d.state_eq] at ho; cases ho
        · intro h hh; rw [d.state_eq] at hh; cases hh
      exact (lengths_reached h0 hr).now
    show ∃ s', stepReach s (.ok p) (.ok false) = .ok s'
    have hpay : ∃ l, payStick s.scores p = .ok l := by
      unfold payStick
      rw [List.getElem?_eq_getElem (by omega)]
      exact ⟨_, rfl⟩
    obtain ⟨l, hpay⟩ := hpay
    have hacc : ∃ s1, reachAccept s p = .ok s1 := by
      unfold reachAccept
      rw [h1]
      simp only [bind_ok, pure_ok, checkSeat_ok]
      exact ⟨_, (), hp, l, hpay, _, reach_token p hp, rfl⟩
    obtain ⟨s1, hacc⟩ := hacc
    refine ⟨{ s1 with ippatsu := setAt s1.ippatsu p 1 }, ?_⟩
    simp only [stepReach, bind_ok, pyAssert_ok]
    refine ⟨(), h2, p, rfl, false, rfl, ?_⟩
    simp only [Bool.false_eq_true, if_false, bind_ok, pure_ok, checkSeat_ok]
    exact ⟨s1, hacc, (), hp, rfl⟩
  | draw p t =>
    obtain ⟨hp, hnone, hlt, hu⟩ := hx
    have hpf : (Fin.ofNat 4 p).val = p := Nat.mod_eq_of_lt hp
    show ∃ s', stepDraw c s (Fin.ofNat 4 p).val (.ok t) = .ok s'
    rw [hpf]
    have hacq : s.acquired = none := by
      rw [ph.acq]
      cases hlm : lastMove acts with
      | none => rfl
      | some m =>
        rw [hlm] at hnone
        cases m with
        | call q code =>
          simp only [holderOf, acquiredOf] at hnone ⊢
          split at hnone
          · rename_i hk; rw [if_pos hk]
          · cases hnone
        | draw => simp [holderOf] at hnone
        | _ => rfl
    have h0 : s.hands p t = 0 := by
      rcases htab.bit p t with h | h
      · exact h
      · exact absurd ((hheld p hp t).1 h) hu
    have hsum : sum34 ((drawTile s p t).hand_tensors p) % 3 = 2 := by
      show sum34 (addRow s.hand_tensors p (tile2idx t) 1 p) % 3 = 2
      rw [sum34_addRow_same _ _ _ _ hlt]
      have h1 := hsize p hp
      have h2 : extra acts p = 0 := by unfold extra; rw [hnone]; simp
      omega
    have hwin : ∀ q, ∀ k ∈ (winArgs c (drawTile s p t) ((drawTile s p t).remaining_tsumo == 0)).naki_list q, WellFormed k := by
      intro q k hk
      simp only [winArgs, List.mem_map] at hk
      obtain ⟨m, hm, rfl⟩ := hk
      exact hmelds q m hm
    obtain ⟨ag, hag⟩ := tsumo_total hest p (drawTile s p t).hand_tensors_full _ hwin t false ((drawTile s p t).cycles == 1)
      (decide (2 ≤ (drawTile s p t).cycles ∧ (drawTile s p t).cycles ≤ 4) && allMenzen (drawTile s p t).is_menzen)
    obtain ⟨re, hre⟩ := reachOffers_total hsh (drawTile s p t) p
    obtain ⟨ka, hka⟩ := kakanOffers_total (drawTile s p t).hands p ((drawTile s p t).melds p)
    simp only [stepDraw, bind_ok, pure_ok, pyAssert_ok, checkTile_ok, beq_iff_eq]
    exact ⟨_, (), by simp [hacq], t, rfl, (), hlt, (), h0, (), hsum, ag, hag, re, hre, ka, hka, rfl⟩
  | discard p t =>
    obtain ⟨hp, hhold, hh⟩ := hx
    have hpf : (Fin.ofNat 4 p).val = p := Nat.mod_eq_of_lt hp
    show ∃ s', stepDiscard c s (Fin.ofNat 4 p).val (.ok t) = .ok s'
    rw [hpf]
    have h1 : s.hands p t = 1 := (hheld p hp t).2 hh
    have ht : t < 136 := by
      apply Classical.byContradiction
      intro h
      rw [htab.big p t (by omega)] at h1
      cases h1
    have hlm : (lastMove acts).isSome = true := by
      cases hlm : lastMove acts with
      | none => rw [hlm] at hhold; cases hhold
      | some m => rfl
    obtain ⟨o, ho⟩ := Option.isSome_iff_exists.1 (stateObj_some hr hlm)
    have hcur : currDuringOrNone s = true ∧ s.acquired.isSome = true := by
      obtain ⟨m, hm⟩ := Option.isSome_iff_exists.1 hlm
      rw [hm] at hhold
      cases m with
      | draw q u =>
        obtain ⟨q', o, e, ag, r, n, h1, h2, h3⟩ := ph.drew hm
        obtain ⟨i, hi⟩ := Option.isSome_iff_exists.1 h2
        refine ⟨?_, by simp [h3]⟩
        unfold currDuringOrNone
        rw [h1, hi]
      | call q code =>
        have hc := ph.cur
        rw [hm] at hc
        have hc : s.curr_halfturn = none := hc
        refine ⟨by unfold currDuringOrNone; rw [hc], ?_⟩
        rw [ph.acq, hm]
        simp only [holderOf] at hhold
        split at hhold
        · cases hhold
        · rename_i hk
          simp only [acquiredOf]
          rw [if_neg hk]
          obtain ⟨pre, post, hacts, _⟩ := lastMove_split acts _ hm
          obtain ⟨_, m, hv, rfl, _⟩ := hl pre _ post hacts
          obtain ⟨hex, ⟨_, _, t3, t4, t5⟩, _⟩ := C93_tiles m hv
          unfold calledTile
          rw [hex]
          rw [t3, t4, t5] at hk
          cases m with
          | chi src k x y z w =>
            obtain ⟨_, _, _, _, _, _, h7⟩ := hv
            simp [LogMeld.tiles, h7]
          | pon src k u w =>
            obtain ⟨_, _, h3, h4⟩ := hv
            have hlen : ((LogMeld.copies k).eraseIdx u).length = 3 := by
              rw [List.length_eraseIdx_of_lt (by simp [LogMeld.copies]; omega)]; rfl
            show (((LogMeld.copies k).eraseIdx u)[w]?).isSome = true
            rw [List.getElem?_eq_getElem (by omega)]; rfl
          | kakan => simp [LogMeld.type] at hk
          | minkan => simp [LogMeld.type] at hk
          | ankan => simp [LogMeld.type] at hk
      | discard => cases hhold
      | dora => cases hhold
      | declare => cases hhold
      | accept => cases hhold
    have hsum : sum34 ((discardTile s p t).hand_tensors p) % 3 = 1 := by
      show sum34 (addRow s.hand_tensors p (tile2idx t) (-1) p) % 3 = 1
      rw [sum34_addRow_same _ _ _ _ ht]
      have h1 := hsize p hp
      have h2 : extra acts p = 1 := by unfold extra; rw [if_pos hhold]
      omega
    have hwin : ∀ q, ∀ k ∈ (winArgs c s (s.remaining_tsumo == 0)).naki_list q, WellFormed k := by
      intro q k hk
      simp only [winArgs, List.mem_map] at hk
      obtain ⟨m, hm, rfl⟩ := hk
      exact hmelds q m hm
    obtain ⟨⟨full, rons⟩, hron⟩ := ron_total hest p (discardTile s p t).hand_tensors_full _ hwin
      (discardTile s p t).sutehai_tensors t ht false
      (fun _ => decide (s.cycles ≤ 3) && decide (s.cycles ≤ p) && allMenzen s.is_menzen)
    obtain ⟨ds, hds, hlen, hown, _⟩ := C16_offer_lists p (discardTile s p t).hand_tensors (t / 4)
      ((tile2idx t).length == 2) hp (by omega)
    have htok := discard_token p (t / 4) (s.acquired == some t) hp (by omega)
    simp only [stepDiscard, bind_ok, pure_ok, pyAssert_ok, checkTile_ok, beq_iff_eq, tile2idx_head, ho]
    refine ⟨_, (), hcur.2, (), hcur.1, t, rfl, (), ht, (), h1, o, rfl, (), hsum, (full, rons), hron, ds, hds, (), ?_, _, htok, rfl⟩
    rw [List.getD_eq_getElem?_getD, hown]
    rfl
  | call p code =>
    obtain ⟨hp, m, hv, rfl, hh, hm⟩ := hx
    obtain ⟨hex, hty, hfrom, n, hn, hncode⟩ := C93_tiles m hv
    have hwf : WellFormed m.encode := (C93_covers _).2 ⟨m, hv, rfl⟩
    show ∃ s', stepNaki c s (.ok m.encode) (.ok p) = .ok s'
    have hmt : meldType m.encode = some m.type := by
      obtain ⟨t1, t2, t3, t4, t5⟩ := hty
      rw [meldType_eq, t1, t2, t3, t4, t5]
      cases m <;> rfl
    obtain ⟨token, _, htok, _⟩ := C13_naki_decodable p m.encode hp m.type hmt
    have hexp : ∀ hands ht, hands = s.hands → ∃ r, expose p m.tiles.1 (hands, ht) = .ok r := by
      rintro hands ht rfl
      exact expose_total p _ _ _ (tiles_nodup m hv) (fun t ht => (hheld p hp t).2 (hh t ht))
    have hsome : s.curr_halfturn.isSome = true := by
      split at hm
      · obtain ⟨t, hm⟩ := hm
        obtain ⟨_, _, _, _, _, _, _, h2, _⟩ := ph.drew hm
        exact h2
      · obtain ⟨q, t, hm⟩ := hm
        obtain ⟨_, _, _, _, _, _, h2⟩ := ph.threw hm
        exact h2
    have hmark : ∀ s1 : RoundSt, s1.curr_halfturn = s.curr_halfturn → s1.halfturns = s.halfturns →
        ∃ s2, nakiMark s1 n = .ok s2 ∧ s2.hands = s1.hands ∧ s2.melds = s1.melds := by
      intro s1 e1 e2
      have ec : s1.curr = s.curr := by unfold RoundSt.curr; rw [e1, e2]
      unfold nakiMark
      rw [hncode, own_iff m hv, ec]
      split at hm
      · rename_i hk
        obtain ⟨t, hm⟩ := hm
        obtain ⟨_, _, _, _, _, _, h1, _, _⟩ := ph.drew hm
        rw [if_pos hk, h1]
        refine ⟨_, rfl, ?_⟩
        unfold RoundSt.setCurr
        split <;> exact ⟨rfl, rfl⟩
      · rename_i hk
        obtain ⟨q, t, hm⟩ := hm
        obtain ⟨_, _, _, _, _, h1, _⟩ := ph.threw hm
        rw [if_neg hk, h1]
        refine ⟨_, rfl, ?_⟩
        unfold RoundSt.setCurr
        split <;> exact ⟨rfl, rfl⟩
    obtain ⟨hlt1, hlt2⟩ := tiles_lt m hv
    have htiles : ∀ s1 : RoundSt, s1.hands = s.hands → ∃ s2, nakiTiles s1 p m.tiles.1 m.tiles.2 = .ok s2 ∧ s2.melds = s1.melds := by
      intro s1 e1
      obtain ⟨⟨h', t'⟩, hr⟩ := hexp s1.hands s1.hand_tensors e1
      unfold nakiTiles
      cases ht2 : m.tiles.2 with
      | none =>
        simp only [bind_ok, pure_ok, checkTiles_ok, checkTile_ok]
        exact ⟨_, ⟨(), hlt1, (h', t'), hr, rfl⟩, rfl⟩
      | some u =>
        simp only [bind_ok, pure_ok, checkTiles_ok, checkTile_ok]
        exact ⟨_, ⟨(), hlt1, (h', t'), hr, (), hlt2 u (by simp [ht2]), rfl⟩, rfl⟩
    have hchan : ∀ (s1 : RoundSt) (o : StateObj), m.own = true → is_kakan m.encode = true →
        (∀ q, ∀ k ∈ s1.melds q, WellFormed k.naki_code) → ∃ s2, chankan c s1 p m.tiles.1 o = .ok s2 := by
      intro s1 o _ hk hw1
      have hhead : m.tiles.1.headD 0 < 136 := by
        cases hd : m.tiles.1 with
        | nil => decide
        | cons u l => exact hlt1 u (by simp [hd])
      unfold chankan
      obtain ⟨⟨full, rons⟩, hron⟩ := ron_total hest p s1.hand_tensors_full
        (winArgs c { s1 with melds := setAt s1.melds p (removePon ((m.tiles.1.headD 0) / 4) (s1.melds p)) } false) (by
          intro q k hk
          simp only [winArgs, List.mem_map] at hk
          obtain ⟨x, hx, rfl⟩ := hk
          by_cases hq : q = p
          · subst hq
            rw [setAt_same] at hx
            exact hw1 q x (mem_removePon hx)
          · rw [setAt_ne _ _ _ _ hq] at hx
            exact hw1 q x hx) s1.sutehai_tensors (m.tiles.1.headD 0) hhead true (fun _ => false)
      simp only [bind_ok, pure_ok]
      exact ⟨_, (full, rons), hron, rfl⟩
    simp only [stepNaki, bind_ok, pyAssert_ok, checkSeat_ok]
    have hs1 : ∀ (b : Bool) (x : RoundSt), (if b = true then { x with remaining_tsumo := x.remaining_tsumo - 1 } else x) =
        { x with remaining_tsumo := if b then x.remaining_tsumo - 1 else x.remaining_tsumo } := by
      intro b x; cases b <;> rfl
    simp only [hs1]
    obtain ⟨s2, hm2, em1, em2⟩ := hmark { s with
      acquired := none
      cycles := s.cycles + (((p : Int) - Code.from_who m.encode) % 4).toNat
      melds := setAt s.melds p (s.melds p ++ [n])
      encoding_tokens := s.encoding_tokens ++ [token] } rfl rfl
    obtain ⟨s3, hm3, em3⟩ := htiles { s2 with remaining_tsumo := if (!is_chi m.encode && !is_pon m.encode) = true
      then s2.remaining_tsumo - 1 else s2.remaining_tsumo } em1
    have hw3 : ∀ q, ∀ k ∈ s3.melds q, WellFormed k.naki_code := by
      rw [em3]
      show ∀ q, ∀ k ∈ s2.melds q, WellFormed k.naki_code
      rw [em2]
      intro q k hk
      change k ∈ setAt s.melds p _ q at hk
      by_cases hq : q = p
      · subst hq
        rw [setAt_same] at hk
        rcases List.mem_append.1 hk with hk | hk
        · exact hmelds q k hk
        · simp only [List.mem_singleton] at hk
          subst hk
          rw [hncode]
          exact hwf
      · rw [setAt_ne _ _ _ _ hq] at hk
        exact hmelds q k hk
    by_cases hkk : is_kakan m.encode = true
    · have hown : m.own = true := by rw [← own_iff m hv, hkk]; simp
      obtain ⟨s4, hm4⟩ := hchan { s3 with
        stateObj := some (mkStateObj c s3 p)
        is_menzen := if Code.from_who m.encode ≠ 0 then setAt s3.is_menzen p 0 else s3.is_menzen
        ippatsu := clearIppatsu s3.ippatsu } (mkStateObj c s3 p) hown hkk hw3
      refine ⟨{ s4 with curr_halfturn := none, cycles := s4.cycles + 1, acquired := none },
        (), hsome, m.encode, rfl, n, hn, p, rfl, (), hp, token, htok, s2, hm2, m.tiles, hex, s3, hm3, ?_⟩
      simp only [hkk, if_true, Bool.or_true, pure_ok, bind_ok]
      exact ⟨s4, hm4, rfl⟩
    · have hkk : is_kakan m.encode = false := by simpa using hkk
      let s4 : RoundSt := { s3 with
        stateObj := some (mkStateObj c s3 p)
        is_menzen := if Code.from_who m.encode ≠ 0 then setAt s3.is_menzen p 0 else s3.is_menzen
        ippatsu := clearIppatsu s3.ippatsu }
      by_cases hb : (is_minkan m.encode || is_ankan m.encode) = true
      · refine ⟨{ s4 with curr_halfturn := none, cycles := s4.cycles + 1, acquired := none },
          (), hsome, m.encode, rfl, n, hn, p, rfl, (), hp, token, htok, s2, hm2, m.tiles, hex, s3, hm3, ?_⟩
        simp only [hkk, Bool.false_eq_true, if_false, Bool.or_false, bind_ok, Except.ok.injEq, exists_eq_left']
        rw [if_pos hb]; rfl
      · refine ⟨{ s4 with curr_halfturn := none, acquired := m.tiles.2 },
          (), hsome, m.encode, rfl, n, hn, p, rfl, (), hp, token, htok, s2, hm2, m.tiles, hex, s3, hm3, ?_⟩
        simp only [hkk, Bool.false_eq_true, if_false, Bool.or_false, bind_ok, Except.ok.injEq, exists_eq_left']
        rw [if_neg hb]; rfl

theorem entry_act {x : Act} (h : x.who < 4) : x.entry.act = some x := by
  cases x <;> simp_all [Act.entry, Ev.act, Act.who, Fin.ofNat, Nat.mod_eq_of_lt]

theorem reached_total {est : Estimate} {sh : List Int → Except PyErr Int} {g : GameInfo} {a : InitAttr}
    {c : RoundCfg} {s0 : RoundSt} (hi : initRound est sh g a = .ok (c, s0)) (he : ∀ q, ∃ b, est q = .ok b)
    (hs : ∀ l, ∃ n, sh l = .ok n) {sc : List Int} (hsc : a.ten = .ok sc) (hsc4 : sc.length = 4)
    {hai : Nat → List Nat} {first : Nat} (hd : a.Deals hai first) :
    ∀ acts, ConsistentRound hai acts → ∃ s, Reached c s0 acts s := by
  refine Spec.ConsistentRound.induct ⟨s0, .start⟩ ?_
  rintro acts x hl hx ⟨s, hr⟩
  obtain ⟨s', h⟩ := step_total hi he hs hsc hsc4 hd hr hl hx
  exact ⟨s', .next hr (entry_act (consistent_who hx)) h⟩

theorem nodup_distinct (l : List Nat) (hl : ∀ t ∈ l, t < 136) (hn : l.Nodup) :
    (List.range 136).countP (fun t => decide (t ∈ l)) = l.length := by
  induction l with
  | nil => simp
  | cons x l ih =>
    rw [List.nodup_cons] at hn
    rw [distinct_cons x l (hl x (by simp)), ih (fun t ht => hl t (by simp [ht])) hn.2, if_neg hn.1]
    rfl

theorem init_total {est : Estimate} {sh : List Int → Except PyErr Int} {g : GameInfo} {a : InitAttr}
    {sc : List Int} (hsc : a.ten = .ok sc) {oya : Nat} (hoya : a.oya = .ok oya) (hoya4 : oya < 4)
    {hai : Nat → List Nat} {first : Nat} (hd : a.Deals hai first)
    (hsize : ∀ p < 4, (hai p).length = 13) (htiles : ∀ t ∈ hai 0 ++ hai 1 ++ hai 2 ++ hai 3 ++ [first], t < 136)
    (hdist : ∀ p < 4, (hai p).Nodup) : ∃ c s0, initRound est sh g a = .ok (c, s0) := by
  obtain ⟨hh, r, h, k, x, y, hseed⟩ := hd
  have l0 := hsize 0 (by omega)
  have l1 := hsize 1 (by omega)
  have l2 := hsize 2 (by omega)
  have l3 := hsize 3 (by omega)
  have hlt : ∀ t ∈ hai 0 ++ hai 1 ++ hai 2 ++ hai 3, t < 136 := fun t ht => htiles t (by simp only [List.mem_append] at ht ⊢; exact .inl ht)
  have hlt1 : first < 136 := htiles first (by simp)
  have n0 := hdist 0 (by omega)
  have n1 := hdist 1 (by omega)
  have n2 := hdist 2 (by omega)
  have n3 := hdist 3 (by omega)
  have h13 : ∀ l : List Nat, (∀ t ∈ l, t < 136) → l.Nodup → l.length = 13 →
      ((List.range 136).map (fun t => if t ∈ l then (1 : Int) else 0)).sum = 13 := by
    intro l h1 h2 h3
    rw [sum_indicator (fun t => t ∈ l), nodup_distinct l h1 h2, h3]
    rfl
  have m : ∀ t, (t ∈ hai 0 → t < 136) ∧ (t ∈ hai 1 → t < 136) ∧ (t ∈ hai 2 → t < 136) ∧ (t ∈ hai 3 → t < 136) := by
    intro t
    simp only [List.mem_append] at hlt
    exact ⟨fun ht => hlt t (by simp [ht]), fun ht => hlt t (by simp [ht]), fun ht => hlt t (by simp [ht]), fun ht => hlt t (by simp [ht])⟩
  have hsum : sum34 (addAt (countTiles (hai 0 ++ hai 1 ++ hai 2 ++ hai 3) remainingTiles (-1)) (tile2idx first) (-1)) = 83 := by
    rw [sum34_addAt _ _ _ hlt1, sum34_countTiles _ _ _ hlt, sum34_remainingTiles]
    simp only [List.length_append, l0, l1, l2, l3]
    decide
  have hall : (List.range 4).all (fun p => ((List.range 136).map (fun t => if t ∈ (if p = 0 then hai 0 else
      if p = 1 then hai 1 else if p = 2 then hai 2 else if p = 3 then hai 3 else []) then (1 : Int) else 0)).sum == 13) = true := by
    rw [List.all_eq_true]
    intro p hp
    rw [List.mem_range] at hp
    rw [beq_iff_eq]
    have : p = 0 ∨ p = 1 ∨ p = 2 ∨ p = 3 := by omega
    rcases this with rfl | rfl | rfl | rfl
    · exact h13 (hai 0) (fun t => (m t).1) n0 l0
    · exact h13 (hai 1) (fun t => (m t).2.1) n1 l1
    · exact h13 (hai 2) (fun t => (m t).2.2.1) n2 l2
    · exact h13 (hai 3) (fun t => (m t).2.2.2) n3 l3
  have k1 : checkSeat oya = .ok () := checkSeat_ok.2 hoya4
  have k2 : checkTiles (hai 0 ++ hai 1 ++ hai 2 ++ hai 3) = .ok () := checkTiles_ok.2 hlt
  have k3 : checkTile first = .ok () := checkTile_ok.2 hlt1
  have k4 : (hai 0).length = (hai 1).length ∧ (hai 1).length = (hai 2).length ∧ (hai 2).length = (hai 3).length :=
    ⟨by omega, by omega, by omega⟩
  have okb : ∀ {α β : Type} (v : α) (f : α → Except PyErr β), ((Except.ok v : Except PyErr α) >>= f) = f v := fun _ _ => rfl
  have k5 : ∀ b : Bool, b = true → pyAssert b = .ok () := fun b hb => pyAssert_ok.2 hb
  simp only [initRound, hsc, hoya, hseed, hh 0 (by omega), hh 1 (by omega), hh 2 (by omega), hh 3 (by omega), okb, k1,
    unpackSeed, k2, k3, if_pos k4, hsum, k5 _ hall]
  exact ⟨_, _, rfl⟩

/-! ### the final check -/

theorem Spec.LegalRound.wall_once {hai : Nat → List Nat} {first : Nat} (hf : FairDeal hai first) {acts : List Act}
    (hl : LegalRound hai first acts) (t : Nat) : (outOfWall hai first acts).count t ≤ 1 := by
  have := Spec.LegalRound.unique hf t acts hl
  unfold outOfWall
  simp only [List.count_append]
  omega

/-- a player never sees a tile twice -/
theorem Spec.LegalRound.seen_once {hai : Nat → List Nat} {first : Nat} (hf : FairDeal hai first) {acts : List Act}
    (hl : LegalRound hai first acts) (p : Nat) (hp : p < 4) (t : Nat) : (seenBy hai first acts p).count t ≤ 1 := by
  have hu := Spec.LegalRound.unique hf t acts hl
  have hdraw := count_drawn acts (fun p u h => hl.consistent.who _ h) t
  have hshown := count_shown acts hl.consistent.who p t hp
  have hc : ∀ q < 4, (collect (Act.loses q) acts).count t ≤ (hai q).count t + (collect (Act.drawn q) acts).count t := by
    intro q hq
    obtain ⟨h1, h2⟩ := Spec.LegalRound.conserve hf q t hq acts hl
    by_cases hh : Holds hai acts q t
    · have := h1 hh; omega
    · have := h2 hh; omega
  have c0 := hc 0 (by omega)
  have c1 := hc 1 (by omega)
  have c2 := hc 2 (by omega)
  have c3 := hc 3 (by omega)
  unfold seenBy
  simp only [List.count_append]
  have : p = 0 ∨ p = 1 ∨ p = 2 ∨ p = 3 := by omega
  rcases this with rfl | rfl | rfl | rfl <;> omega

theorem once_counts {l : List Nat} (h : ∀ t, l.count t ≤ 1) (k : Nat) : kindCount l k ≤ 4 := by
  rw [kindCount_counts]
  have h0 := h (4 * k)
  have h1 := h (4 * k + 1)
  have h2 := h (4 * k + 2)
  have h3 := h (4 * k + 3)
  omega

theorem once_red {l m : List Nat} (hm : m.Sublist l) (h : ∀ t, l.count t ≤ 1) (k : Nat) (hk : 34 ≤ k) (hk' : k < 37)
    (hl : ∀ t ∈ l, t < 136) : slotCount m k ≤ 1 := by
  obtain ⟨j, rfl⟩ : ∃ j, k = 34 + j := ⟨k - 34, by omega⟩
  rw [slotCount_red m (fun t ht => hl t (hm.subset ht)) j (by omega)]
  exact Nat.le_trans (hm.count_le _) (h _)

theorem lt_of_reached {est : Estimate} {sh : List Int → Except PyErr Int} {g : GameInfo} {a : InitAttr}
    {c : RoundCfg} {s0 : RoundSt} (hi : initRound est sh g a = .ok (c, s0)) {acts : List Act} {s : RoundSt}
    (hr : Reached c s0 acts s) : (∀ t ∈ collect Act.drawnByAny acts, t < 136) ∧ (∀ t ∈ collect Act.doras acts, t < 136) ∧
      ∀ p, (∀ t ∈ collect (Act.drawn p) acts, t < 136) ∧ ∀ t ∈ collect (Act.shownTo p) acts, t < 136 := by
  refine hr.induct (P := fun acts _ => (∀ t ∈ collect Act.drawnByAny acts, t < 136) ∧ (∀ t ∈ collect Act.doras acts, t < 136) ∧
      ∀ p, (∀ t ∈ collect (Act.drawn p) acts, t < 136) ∧ ∀ t ∈ collect (Act.shownTo p) acts, t < 136) ?_ ?_
  · simp [collect]
  · intro acts s act s' _ ih he
    simp only [collect_snoc, List.mem_append]
    obtain ⟨h1, h2, h3⟩ := ih
    have key : (∀ t ∈ act.drawnByAny, t < 136) ∧ (∀ t ∈ act.doras, t < 136) ∧
        ∀ p, (∀ t ∈ act.drawn p, t < 136) ∧ ∀ t ∈ act.shownTo p, t < 136 := by
      cases he with
      | dora ht => simpa [Act.drawnByAny, Act.doras, Act.drawn, Act.shownTo] using ht
      | declare => simp [Act.drawnByAny, Act.doras, Act.drawn, Act.shownTo]
      | accept => simp [Act.drawnByAny, Act.doras, Act.drawn, Act.shownTo]
      | @call p code _ e =>
        have hx : exposedTiles code = e.ex := by unfold exposedTiles; rw [e.exposed_eq]
        refine ⟨by simp [Act.drawnByAny], by simp [Act.doras], fun q => ⟨by simp [Act.drawn], ?_⟩⟩
        intro t ht
        simp only [Act.shownTo, hx] at ht
        split at ht
        · cases ht
        · exact e.ex_lt t ht
      | @draw p t _ hp e =>
        refine ⟨by simpa [Act.drawnByAny] using e.tile_lt, by simp [Act.doras], fun q => ⟨?_, by simp [Act.shownTo]⟩⟩
        intro u hu
        simp only [Act.drawn] at hu
        split at hu
        · simp at hu; rw [hu]; exact e.tile_lt
        · cases hu
      | @discard p t _ hp e =>
        refine ⟨by simp [Act.drawnByAny], by simp [Act.doras], fun q => ⟨by simp [Act.drawn], ?_⟩⟩
        intro u hu
        simp only [Act.shownTo] at hu
        split at hu
        · cases hu
        · simp at hu; rw [hu]; exact e.tile_lt
    obtain ⟨k1, k2, k3⟩ := key
    refine ⟨?_, ?_, fun p => ⟨?_, ?_⟩⟩
    · rintro t (h | h); exacts [h1 t h, k1 t h]
    · rintro t (h | h); exacts [h2 t h, k2 t h]
    · rintro t (h | h); exacts [(h3 p).1 t h, (k3 p).1 t h]
    · rintro t (h | h); exacts [(h3 p).2 t h, (k3 p).2 t h]

/-- the final check of the code -/
theorem finalOk_iff {est : Estimate} {sh : List Int → Except PyErr Int} {g : GameInfo} {a : InitAttr}
    {c : RoundCfg} {s0 : RoundSt} (hi : initRound est sh g a = .ok (c, s0)) {hai : Nat → List Nat} {first : Nat}
    (hd : a.Deals hai first) {acts : List Act} {s : RoundSt} (hr : Reached c s0 acts s) :
    finalOk s = true ↔ WithinSupply hai first acts := by
  obtain ⟨h1, h2⟩ := C36_unseen_partial hi hd hr
  have h3 := fun p hp => C37_unseen_by_player_partial hi hd hr p hp
  unfold finalOk
  simp only [Bool.and_eq_true, List.all_eq_true, List.mem_range, decide_eq_true_eq]
  constructor
  · rintro ⟨f1, f2⟩
    refine ⟨?_, ?_, ?_, ?_⟩
    · intro k hk
      have := f1 k (by omega)
      rw [h1 k hk] at this
      unfold outOfWall
      omega
    · intro k hk hk'
      have := f1 k hk'
      rw [h2 k hk hk'] at this
      omega
    · intro p hp k hk
      have := f2 p hp k (by omega)
      rw [(h3 p hp).1 k hk] at this
      unfold seenBy
      omega
    · intro p hp k hk hk'
      have := f2 p hp k hk'
      rw [(h3 p hp).2 k hk hk'] at this
      omega
  · intro w
    refine ⟨?_, ?_⟩
    · intro k hk
      by_cases hk34 : k < 34
      · rw [h1 k hk34]
        have := w.wall k hk34
        unfold outOfWall at this
        omega
      · rw [h2 k (by omega) hk]
        have := w.wall_red k (by omega) hk
        omega
    · intro p hp k hk
      by_cases hk34 : k < 34
      · rw [(h3 p hp).1 k hk34]
        have := w.seen p hp k hk34
        unfold seenBy at this
        omega
      · rw [(h3 p hp).2 k (by omega) hk]
        have := w.seen_red p hp k (by omega) hk
        omega

theorem Spec.LegalRound.within {hai : Nat → List Nat} {first : Nat} (hf : FairDeal hai first) {acts : List Act}
    (hl : LegalRound hai first acts) (b1 : ∀ t ∈ collect Act.drawnByAny acts, t < 136) (b2 : ∀ t ∈ collect Act.doras acts, t < 136)
    (b3 : ∀ p, (∀ t ∈ collect (Act.drawn p) acts, t < 136) ∧ ∀ t ∈ collect (Act.shownTo p) acts, t < 136) :
    WithinSupply hai first acts := by
  have hlt : ∀ t, (t ∈ hai 0 ∨ t ∈ hai 1 ∨ t ∈ hai 2 ∨ t ∈ hai 3 ∨ t = first) → t < 136 := by
    intro t ht
    refine hf.tiles t ?_
    simp only [List.mem_append, List.mem_singleton]
    rcases ht with h | h | h | h | h <;> simp [h]
  refine ⟨fun k _ => once_counts (hl.wall_once hf) k, ?_, fun p hp k _ => once_counts (hl.seen_once hf p hp) k, ?_⟩
  · intro k hk hk'
    refine once_red (l := outOfWall hai first acts) (List.sublist_append_left _ _) (hl.wall_once hf) k hk hk' ?_
    intro t ht
    simp only [outOfWall, List.mem_append, List.mem_singleton] at ht
    rcases ht with (((((h | h) | h) | h) | h) | h) | h
    · exact hlt t (by simp [h])
    · exact hlt t (by simp [h])
    · exact hlt t (by simp [h])
    · exact hlt t (by simp [h])
    · exact hlt t (by simp [h])
    · exact b1 t h
    · exact b2 t h
  · intro p hp k hk hk'
    refine once_red (l := seenBy hai first acts p) (List.sublist_append_left _ _) (hl.seen_once hf p hp) k hk hk' ?_
    intro t ht
    simp only [seenBy, List.mem_append, List.mem_singleton] at ht
    rcases ht with (((h | h) | h) | h) | h
    · have : p = 0 ∨ p = 1 ∨ p = 2 ∨ p = 3 := by omega
      rcases this with rfl | rfl | rfl | rfl <;> exact hlt t (by simp [h])
    · exact hlt t (by simp [h])
    · exact (b3 p).1 t h
    · exact (b3 p).2 t h
    · exact b2 t h

theorem runEvents_total {c : RoundCfg} {s0 : RoundSt} {rs : List Ev} (hrs : ∃ w sc l, rs = .result w sc :: l) :
    ∀ acts s, (∀ x ∈ acts, x.who < 4) → Reached c s0 acts s → ∀ s1 pre, Reached c s0 pre s1 →
      ∀ post, acts = pre ++ post → runEvents c (logOf post ++ rs) s1 = .ok (s, some rs) := by
  intro acts s hw hr s1 pre hpre post
  induction post generalizing s1 pre with
  | nil =>
    intro he
    rw [List.append_nil] at he
    subst he
    have := hr.det hpre
    subst this
    obtain ⟨w, sc, l, rfl⟩ := hrs
    rfl
  | cons x post ih =>
    rintro rfl
    obtain ⟨s1', s2, r1, r2, r3, r4⟩ := hr.at
    have := hpre.det r1
    subst this
    have hstep : step c s1 x.entry = .ok s2 := by
      generalize hx : pre ++ [x] = l at r3
      cases r3 with
      | start => simp at hx
      | @next acts' s' _ e act hr' ha hs' =>
        obtain ⟨rfl, h4⟩ := List.append_inj' hx rfl
        simp only [List.cons.injEq, and_true] at h4
        subst h4
        have := hpre.det hr'
        subst this
        rw [act_inj ha (entry_act (hw x (by simp)))] at hs'
        exact hs'
    have hne : ∀ w sc, x.entry ≠ .result w sc := by intro w sc; cases x <;> simp [Act.entry]
    show runEvents c (x.entry :: (logOf post ++ rs)) s1 = _
    rw [runEvents_cons c _ _ _ hne, hstep]
    exact ih s2 (pre ++ [x]) r3 (by simp)

theorem checkResults_total : ∀ rs : List Ev, (∀ e ∈ rs, ∃ w sc, e = .result w (.ok sc)) → checkResults rs = .ok ()
  | [], _ => rfl
  | e :: rs, h => by
    obtain ⟨w, sc, rfl⟩ := h e (by simp)
    simp only [checkResults]
    exact checkResults_total rs (fun e he => h e (by simp [he]))

theorem accepted_of_reached {est : Estimate} {sh : List Int → Except PyErr Int} {g : GameInfo} {a : InitAttr} {c : RoundCfg}
    {s0 : RoundSt} (hi : initRound est sh g a = .ok (c, s0)) {acts : List Act} {s : RoundSt} (hr : Reached c s0 acts s)
    (hw : ∀ x ∈ acts, x.who < 4) {rs : List Ev} (hne : rs ≠ []) (hrs : ∀ e ∈ rs, ∃ w sc, e = .result w (.ok sc))
    (hfin : finalOk s = true) : processRound est sh g a (logOf acts ++ rs) = .ok s := by
  have h1 : ∃ w sc l, rs = .result w sc :: l := by
    cases rs with
    | nil => exact absurd rfl hne
    | cons e l =>
      obtain ⟨w, sc, rfl⟩ := hrs e (by simp)
      exact ⟨w, .ok sc, l, rfl⟩
  have h2 := runEvents_total h1 acts s hw hr s0 [] .start acts rfl
  simp only [processRound, bind_ok]
  refine ⟨(c, s0), hi, (s, some rs), h2, ?_⟩
  simp only [bind_ok, pure_ok, pyAssert_ok]
  exact ⟨(), checkResults_total rs hrs, (), hfin, trivial⟩

/-- C115: no legally played round is rejected: whenever the deal and everything that happens in a round is legal and the
round ends with a result, `process` accepts it, for every hand evaluator and shanten calculator that answers all
questions. -/
theorem C115_accepted {est : Estimate} {sh : List Int → Except PyErr Int} (he : ∀ q, ∃ b, est q = .ok b)
    (hs : ∀ l, ∃ n, sh l = .ok n) (g : GameInfo) {a : InitAttr} {sc : List Int} (hsc : a.ten = .ok sc) (hsc4 : sc.length = 4)
    {oya : Nat} (hoya : a.oya = .ok oya) (hoya4 : oya < 4) {hai : Nat → List Nat} {first : Nat} (hd : a.Deals hai first)
    (hf : FairDeal hai first) {acts : List Act} (hl : LegalRound hai first acts) {rs : List Ev}
    (hne : rs ≠ []) (hrs : ∀ e ∈ rs, ∃ w sc, e = .result w (.ok sc)) :
    ∃ s, processRound est sh g a (logOf acts ++ rs) = .ok s := by
  have hdist : ∀ p < 4, (hai p).Nodup := by
    have hnd := hf.distinct
    simp only [List.nodup_append] at hnd
    obtain ⟨⟨⟨⟨n0, n1, _⟩, n2, _⟩, n3, _⟩, _⟩ := hnd
    intro p hp
    have : p = 0 ∨ p = 1 ∨ p = 2 ∨ p = 3 := by omega
    rcases this with rfl | rfl | rfl | rfl <;> assumption
  obtain ⟨c, s0, hi⟩ := init_total (est := est) (sh := sh) (g := g) hsc hoya hoya4 hd hf.size hf.tiles hdist
  obtain ⟨s, hr⟩ := reached_total hi he hs hsc hsc4 hd acts hl.consistent
  obtain ⟨b1, b2, b3⟩ := lt_of_reached hi hr
  exact ⟨s, accepted_of_reached hi hr hl.consistent.who hne hrs ((finalOk_iff hi hd hr).2 (hl.within hf b1 b2 b3))⟩

/-- an accepted event is consistent with what came before -/
theorem effect_consistent {est : Estimate} {sh : List Int → Except PyErr Int} {g : GameInfo} {a : InitAttr}
    {c : RoundCfg} {s0 : RoundSt} (hi : initRound est sh g a = .ok (c, s0)) {hai : Nat → List Nat} {first : Nat}
    (hd : a.Deals hai first) {acts : List Act} {s s' : RoundSt} (hr : Reached c s0 acts s) {x : Act} (he : Effect c s x s')
    (hk : KansByDrawer (acts ++ [x])) (hw : ∀ p c, Act.call p c ∈ acts ++ [x] → WellFormed c) : Consistent hai acts x := by
  have ph := phase_reached hi hr
  have hheld : ∀ p < 4, ∀ t, s.hands p t = 1 ↔ Holds hai acts p t := fun p hp t => C34_concealed hi hd.1 hr p t hp
  have hsize := (sizes_reached hi hr
    (fun pre p c post e => hk pre p c (post ++ [x]) (by simp [e])) (fun p c h => hw p c (by simp [h]))).size
  cases he with
  | dora ht _ => exact ht
  | declare hp hc ht hdur ha =>
    obtain ⟨p, u, h1, _⟩ := ph.during hc ht hdur
    exact ⟨hp, p, u, h1⟩
  | accept hp hc ht hpost hv htok =>
    obtain ⟨p, u, h1, _⟩ := ph.post hc ht hpost
    exact ⟨hp, p, u, h1⟩
  | @draw p t _ hp e =>
    refine ⟨hp, draw_nobody hi hr e.acquired_none, e.tile_lt, fun h => ?_⟩
    have h1 := (hheld p hp t).2 h
    rw [e.not_held] at h1
    cases h1
  | @discard p t _ hp e =>
    refine ⟨hp, ?_, (hheld p hp t).1 e.held⟩
    apply Classical.byContradiction
    intro hne
    have h1 := hsize p hp
    have h2 : extra acts p = 0 := by unfold extra; rw [if_neg hne]
    have h3 := e.sum_eq
    have h4 : sum34 ((discardTile s p t).hand_tensors p) = sum34 (s.hand_tensors p) + -1 :=
      sum34_addRow_same _ _ _ _ e.tile_lt
    omega
  | @call p code _ e =>
    obtain ⟨m, hv, rfl⟩ := (C93_covers code).1 (hw p code (by simp))
    obtain ⟨hex, _⟩ := C93_tiles m hv
    have hx : e.ex = m.tiles.1 := by
      have := e.exposed_eq
      rw [hex] at this
      have := Except.ok.inj this
      exact (congrArg Prod.fst this).symm
    refine ⟨e.player_lt, m, hv, rfl, ?_, ?_⟩
    · rw [← hx]
      intro t ht
      exact (hheld p e.player_lt t).1 ((expose_ok e.expose_eq).2.1 t ht)
    · have hkind := e.kind_eq
      rw [own_iff m hv] at hkind
      by_cases ho : m.own = true
      · rw [if_pos ho]
        exact hk acts p _ [] rfl (by rw [own_iff m hv]; exact ho)
      · rw [if_neg ho] at hkind ⊢
        obtain ⟨q, u, h1, _⟩ := ph.post e.curr_eq e.turn_eq hkind
        exact ⟨q, u, h1⟩

/-- C56, exactly which logs are accepted.  For a deal of four hands of thirteen different tiles each, a total evaluator
and shanten calculator, and events with melds in the documented format, closed and added kans being made by the player who
has just drawn: the round is accepted iff every event is consistent with the hand of the player who acts, and nobody ever
sees, and all together do not contain, more than four tiles of a kind or two red fives of a suit.  In particular, that a
tile drawn may be in another hand is only noticed if the total number is exceeded. -/
theorem C56_accepted_iff {est : Estimate} {sh : List Int → Except PyErr Int} (he : ∀ q, ∃ b, est q = .ok b)
    (hs : ∀ l, ∃ n, sh l = .ok n) (g : GameInfo) {a : InitAttr} {sc : List Int} (hsc : a.ten = .ok sc) (hsc4 : sc.length = 4)
    {oya : Nat} (hoya : a.oya = .ok oya) (hoya4 : oya < 4) {hai : Nat → List Nat} {first : Nat} (hd : a.Deals hai first)
    (hsize : ∀ p < 4, (hai p).length = 13) (htiles : ∀ t ∈ hai 0 ++ hai 1 ++ hai 2 ++ hai 3 ++ [first], t < 136)
    (hdist : ∀ p < 4, (hai p).Nodup) {acts : List Act} (hwho : ∀ x ∈ acts, x.who < 4) (hk : KansByDrawer acts)
    (hw : ∀ p c, Act.call p c ∈ acts → WellFormed c) {w : Bool} {res : List Int} :
    (∃ s, processRound est sh g a (logOf acts ++ [.result w (.ok res)]) = .ok s) ↔
      ConsistentRound hai acts ∧ WithinSupply hai first acts := by
  constructor
  · rintro ⟨s, h⟩
    have hmap : (logOf acts).map Ev.act = acts.map some :=
      map_ev (List.all_eq_true.2 (fun b hb => decide_eq_true (hwho b hb)))
    obtain ⟨c, s0, hi, hr⟩ := accepted_exact (acts := acts) h hmap
    refine ⟨?_, (finalOk_iff hi hd hr).1 (accepted_final h)⟩
    rintro pre x post rfl
    obtain ⟨s1, s2, r1, r2, r3, r4⟩ := hr.at
    refine effect_consistent hi hd r1 r2 ?_ ?_
    · intro pre' p' c' post' e hc
      exact hk pre' p' c' (post' ++ post) (by
        have : pre ++ x :: post = (pre ++ [x]) ++ post := by simp
        rw [this, e]; simp) hc
    · intro p c hm
      refine hw p c ?_
      have : pre ++ x :: post = (pre ++ [x]) ++ post := by simp
      rw [this]
      exact List.mem_append_left _ hm
  · rintro ⟨hcons, hsup⟩
    obtain ⟨c, s0, hi⟩ := init_total (est := est) (sh := sh) (g := g) hsc hoya hoya4 hd hsize htiles hdist
    obtain ⟨s, hr⟩ := reached_total hi he hs hsc hsc4 hd acts hcons
    exact ⟨s, accepted_of_reached hi hr hwho (by simp) (by simp) ((finalOk_iff hi hd hr).2 hsup)⟩

/-- C115: what is made of a legal round in which at most four sticks are paid goes through the whole pipeline. -/
theorem C115_pipeline {est : Estimate} {sh : List Int → Except PyErr Int} (he : ∀ q, ∃ b, est q = .ok b)
    (hs : ∀ l, ∃ n, sh l = .ok n) (g : GameInfo) {a : InitAttr} {sc : List Int} (hsc : a.ten = .ok sc) (hsc4 : sc.length = 4)
    {oya : Nat} (hoya : a.oya = .ok oya) (hoya4 : oya < 4) {hai : Nat → List Nat} {first : Nat} (hd : a.Deals hai first)
    (hf : FairDeal hai first) {acts : List Act} (hl : LegalRound hai first acts) {rs : List Ev}
    (hne : rs ≠ []) (hrs : ∀ e ∈ rs, ∃ w sc, e = .result w (.ok sc)) (h4 : acts.countP Act.isAccept ≤ 4) :
    ∃ s, processRound est sh g a (logOf acts ++ rs) = .ok s ∧ PlayedRound s := by
  obtain ⟨s, h⟩ := C115_accepted he hs g hsc hsc4 hoya hoya4 hd hf hl hne hrs
  refine ⟨s, h, est, sh, g, a, _, h, ?_⟩
  have hacts : (logOf acts ++ rs).filterMap Ev.act = acts := by
    rw [List.filterMap_append]
    have h1 : rs.filterMap Ev.act = [] := by
      rw [List.filterMap_eq_nil_iff]
      intro e he
      obtain ⟨w, sc, rfl⟩ := hrs e he
      rfl
    rw [h1, List.append_nil]
    have h2 : ∀ l : List Act, (∀ x ∈ l, x.who < 4) → (logOf l).filterMap Ev.act = l := by
      intro l
      induction l with
      | nil => intro _; rfl
      | cons x l ih =>
        intro hx
        show (x.entry :: logOf l).filterMap Ev.act = x :: l
        rw [List.filterMap_cons_some (entry_act (hx x (by simp))), ih (fun y hy => hx y (by simp [hy]))]
    exact h2 acts hl.consistent.who
  rw [hacts]
  refine ⟨hl.consistent.kans, hl.consistent.codes, ?_, h4⟩
  intro sc' h'
  rw [hsc] at h'
  cases h'
  exact hsc4

/-! a legal round -/

/-- `Holds`, computed from the last event backwards -/
def holdsB (hai : Nat → List Nat) (p t : Nat) : List Act → Bool
  | [] => decide (t ∈ hai p)
  | a :: rest => (holdsB hai p t rest && decide (t ∉ a.loses p)) || decide (a = .draw p t)

theorem holdsB_iff (hai : Nat → List Nat) (p t : Nat) (rev : List Act) :
    Holds hai rev.reverse p t ↔ holdsB hai p t rev = true := by
  induction rev with
  | nil => simp [Holds, holdsB]
  | cons a rest ih =>
    rw [List.reverse_cons, holds_snoc, ih]
    simp [holdsB]

instance (hai : Nat → List Nat) (acts : List Act) (p t : Nat) : Decidable (Holds hai acts p t) :=
  decidable_of_iff (holdsB hai p t acts.reverse = true) (by rw [← holdsB_iff, List.reverse_reverse])

instance (hai : Nat → List Nat) (first : Nat) (acts : List Act) (t : Nat) : Decidable (Unseen hai first acts t) :=
  inferInstanceAs (Decidable (_ ∧ _ ∧ _ ∧ _ ∧ _))

theorem legal_snoc {hai : Nat → List Nat} {first : Nat} {acts : List Act} {x : Act} (h : LegalRound hai first acts)
    (hx : MayFollow hai first acts x) : LegalRound hai first (acts ++ [x]) := by
  intro pre y post e
  rcases List.eq_nil_or_concat post with rfl | ⟨post', z, rfl⟩
  · obtain ⟨rfl, h2⟩ := List.append_inj' e rfl
    simp only [List.cons.injEq, and_true] at h2
    subst h2
    exact hx
  · rw [List.concat_eq_append, ← List.cons_append, ← List.append_assoc] at e
    obtain ⟨h1, _⟩ := List.append_inj' e rfl
    exact h pre y post' h1

/-- a round with a closed kan, a riichi and a pon -/
def legalActs : List Act :=
  [.draw 0 120, .call 0 0, .dora 88, .draw 0 121, .declare 0, .discard 0 121, .accept 0, .draw 1 40, .discard 1 89,
   .draw 2 122, .discard 2 42, .call 1 (LogMeld.pon 1 10 3 2).encode, .discard 1 85]

theorem dealKan_fair : FairDeal dealtKan 132 := by
  refine ⟨?_, by decide, by decide⟩
  decide

theorem legalActs_legal : LegalRound dealtKan 132 legalActs := by
  have h0 : LegalRound dealtKan 132 [] := by intro pre x post e; simp at e
  have h1 := legal_snoc h0 (x := .draw 0 120) ⟨by decide, by decide, by decide⟩
  have h2 := legal_snoc h1 (x := .call 0 0) ⟨by decide, .ankan 0, (by decide : 0 < 136), rfl, by decide, 120, rfl⟩
  have h3 := legal_snoc h2 (x := .dora 88) (by decide : Unseen _ _ _ _)
  have h4 := legal_snoc h3 (x := .draw 0 121) ⟨by decide, by decide, by decide⟩
  have h5 := legal_snoc h4 (x := .declare 0) ⟨by decide, 0, 121, rfl⟩
  have h6 := legal_snoc h5 (x := .discard 0 121) ⟨by decide, by decide, by decide⟩
  have h7 := legal_snoc h6 (x := .accept 0) ⟨by decide, 0, 121, rfl⟩
  have h8 := legal_snoc h7 (x := .draw 1 40) ⟨by decide, by decide, by decide⟩
  have h9 := legal_snoc h8 (x := .discard 1 89) ⟨by decide, by decide, by decide⟩
  have h10 := legal_snoc h9 (x := .draw 2 122) ⟨by decide, by decide, by decide⟩
  have h11 := legal_snoc h10 (x := .discard 2 42) ⟨by decide, by decide, by decide⟩
  have h12 := legal_snoc h11 (x := .call 1 (LogMeld.pon 1 10 3 2).encode)
    ⟨by decide, .pon 1 10 3 2, ⟨by decide, by decide, by decide, by decide⟩, rfl, by decide, 2, 42, rfl⟩
  exact legal_snoc h12 (x := .discard 1 85) ⟨by decide, by decide, by decide⟩

example : ∃ s, processRound noWin farAway ⟨0⟩ dealKan (logOf legalActs ++ [.result false (.ok [])]) = .ok s ∧ PlayedRound s :=
  C115_pipeline (fun _ => ⟨_, rfl⟩) (fun _ => ⟨_, rfl⟩) ⟨0⟩ rfl rfl rfl (by decide) dealKan_deals dealKan_fair legalActs_legal
    (by simp) (by simp) (by decide)

end MJ
