import Verif.Spec.Table
import Verif.Props.RoundTiles
import Verif.Props.MeldLog
/-!
C107, C108: what lies on the table.
-/
namespace MJ
open Code Spec

/-! ### C107 -/

theorem isPonOf_encode (m : LogMeld) (hv : m.Valid) (n : Naki) (hn : n.naki_code = m.encode) (k : Nat) :
    isPonOf k n = m.IsPonOf k := by
  obtain ⟨_, hty, _⟩ := C93_tiles m hv
  unfold isPonOf
  rw [hn]
  cases m with
  | pon src k' u w =>
    obtain ⟨h1, h2, h3, h4⟩ := hv
    have e1 : (LogMeld.pon src k' u w).encode / 4 % 4 = 2 := by simp only [LogMeld.encode]; omega
    have e2 : (LogMeld.pon src k' u w).encode / 512 % 128 / 3 = k' := by
      have e0 : (LogMeld.pon src k' u w).encode / 512 = k' * 3 + w := by simp only [LogMeld.encode]; omega
      rw [e0, Nat.mod_eq_of_lt (by omega)]; omega
    rw [(is_pon_iff _).2 e1, pattern_pon_color, pattern_pon_number, e2, Bool.true_and]
    show (_ == k) = (k' == k)
    rw [show k' / 9 * 9 + k' % 9 = k' by omega]
  | chi src k' x y z w =>
    have e1 : (LogMeld.chi src k' x y z w).encode / 4 % 4 ≠ 2 := by
      obtain ⟨h1, h2, h3, h4⟩ := hv
      simp only [LogMeld.encode]; omega
    rw [(is_pon_false _).2 e1, Bool.false_and]; rfl
  | kakan src k' u w =>
    have e1 : (LogMeld.kakan src k' u w).encode / 4 % 4 ≠ 2 := by
      obtain ⟨h1, h2, h3, h4⟩ := hv
      simp only [LogMeld.encode]; omega
    rw [(is_pon_false _).2 e1, Bool.false_and]; rfl
  | minkan src t =>
    have e1 : (LogMeld.minkan src t).encode / 4 % 4 ≠ 2 := by
      obtain ⟨h1, h2⟩ := hv
      simp only [LogMeld.encode]; omega
    rw [(is_pon_false _).2 e1, Bool.false_and]; rfl
  | ankan t =>
    have e1 : (LogMeld.ankan t).encode / 4 % 4 ≠ 2 := by simp only [LogMeld.encode]; omega
    rw [(is_pon_false _).2 e1, Bool.false_and]; rfl

theorem kakan_encode (m : LogMeld) (hv : m.Valid) : is_kakan m.encode = true ↔ ∃ src k u w, m = .kakan src k u w := by
  rw [is_kakan_iff]
  cases m with
  | pon src k' u w =>
    obtain ⟨h1, h2, h3, h4⟩ := hv
    constructor
    · intro h; simp only [LogMeld.encode] at h; omega
    · rintro ⟨_, _, _, _, h⟩; cases h
  | chi src k' x y z w =>
    obtain ⟨h1, h2, h3, h4⟩ := hv
    constructor
    · intro h; simp only [LogMeld.encode] at h; omega
    · rintro ⟨_, _, _, _, h⟩; cases h
  | kakan src k' u w =>
    obtain ⟨h1, h2, h3, h4⟩ := hv
    constructor
    · intro _; exact ⟨_, _, _, _, rfl⟩
    · intro _; simp only [LogMeld.encode]; omega
  | minkan src t =>
    obtain ⟨h1, h2⟩ := hv
    constructor
    · intro h; simp only [LogMeld.encode] at h; omega
    · rintro ⟨_, _, _, _, h⟩; cases h
  | ankan t =>
    constructor
    · intro h; simp only [LogMeld.encode] at h; omega
    · rintro ⟨_, _, _, _, h⟩; cases h

theorem onTable_sublist (ms : List LogMeld) : (LogMeld.onTable ms).Sublist ms := by
  induction ms with
  | nil => exact .slnil
  | cons m ms ih =>
    cases m <;> unfold LogMeld.onTable
    case pon => split; exact ih.cons _; exact ih.cons₂ _
    all_goals exact ih.cons₂ _

theorem onTable_snoc (ms : List LogMeld) (m : LogMeld) :
    LogMeld.onTable (ms ++ [m]) = (match m with
      | .kakan _ k _ _ => (LogMeld.onTable ms).filter (fun x => !x.IsPonOf k)
      | _ => LogMeld.onTable ms) ++ [m] := by
  induction ms with
  | nil => cases m <;> simp [LogMeld.onTable]
  | cons x xs ih =>
    cases x with
    | pon src k u w =>
      rw [List.cons_append]
      unfold LogMeld.onTable
      rw [ih, List.any_append]
      by_cases h1 : xs.any (LogMeld.IsAddedOf k) = true
      · simp only [h1, Bool.true_or, if_true]
      · have h1 : xs.any (LogMeld.IsAddedOf k) = false := by simpa using h1
        cases m with
        | kakan src' k' u' w' =>
          by_cases hk : k' = k
          · subst hk
            simp [h1, LogMeld.IsAddedOf, LogMeld.IsPonOf]
          · have hk' : ¬ k = k' := fun h => hk h.symm
            simp [h1, LogMeld.IsAddedOf, LogMeld.IsPonOf, hk, hk']
        | _ => simp [h1, LogMeld.IsAddedOf]
    | _ =>
      rw [List.cons_append]
      unfold LogMeld.onTable
      rw [ih]
      cases m <;> simp [LogMeld.IsPonOf]

/-- removing the first pon of the kind from a list with at most one -/
theorem removePon_filter (k : Nat) (l : List Naki) (h : l.countP (isPonOf k) ≤ 1) :
    removePon k l = l.filter (fun n => !isPonOf k n) := by
  induction l with
  | nil => rfl
  | cons n l ih =>
    unfold removePon
    rw [List.countP_cons] at h
    by_cases hn : isPonOf k n = true
    · rw [if_pos hn] at h ⊢
      have : l.countP (isPonOf k) = 0 := by omega
      rw [List.filter_cons_of_neg (by simp [hn]), List.filter_eq_self.2]
      intro x hx
      have := List.countP_eq_zero.1 this x hx
      simpa using this
    · rw [if_neg hn] at h ⊢
      rw [List.filter_cons_of_pos (by simpa using hn), ih (by omega)]

/-- two lists with the same codes -/
theorem map_filter_codes (l : List Naki) (ms : List LogMeld) (h : l.map (·.naki_code) = ms.map LogMeld.encode)
    (hv : ∀ m ∈ ms, m.Valid) (k : Nat) :
    (l.filter (fun n => !isPonOf k n)).map (·.naki_code) = (ms.filter (fun m => !m.IsPonOf k)).map LogMeld.encode ∧
    l.countP (isPonOf k) = ms.countP (LogMeld.IsPonOf k) := by
  induction l generalizing ms with
  | nil =>
    have : ms = [] := by simpa using h.symm
    subst this
    exact ⟨rfl, rfl⟩
  | cons n l ih =>
    cases ms with
    | nil => simp at h
    | cons m ms =>
      simp only [List.map_cons, List.cons.injEq] at h
      obtain ⟨i1, i2⟩ := ih ms h.2 (fun x hx => hv x (by simp [hx]))
      have e := isPonOf_encode m (hv m (by simp)) n h.1 k
      rw [List.countP_cons, List.countP_cons, i2, e]
      refine ⟨?_, rfl⟩
      by_cases hm : m.IsPonOf k = true
      · rw [List.filter_cons_of_neg (by simp [e, hm]), List.filter_cons_of_neg (by simp [hm]), i1]
      · rw [List.filter_cons_of_pos (by simpa [e] using hm), List.filter_cons_of_pos (by simpa using hm),
          List.map_cons, List.map_cons, i1, h.1]

/-- C107: the melds recorded for player `p` are the player's calls in order, without the pons that were extended. -/
theorem C107_melds {est : Estimate} {sh : List Int → Except PyErr Int} {g : GameInfo} {a : InitAttr}
    {c : RoundCfg} {s0 : RoundSt} (hi : initRound est sh g a = .ok (c, s0)) {acts : List Act} {s : RoundSt}
    (hr : Reached c s0 acts s) (p : Nat) (ms : List LogMeld) (hms : collect (Act.callOf p) acts = ms.map LogMeld.encode)
    (hv : ∀ m ∈ ms, m.Valid) (hone : LogMeld.PonOnce ms) :
    (s.melds p).map (·.naki_code) = (LogMeld.onTable ms).map LogMeld.encode := by
  obtain ⟨d⟩ := initRound_ok hi
  revert ms
  refine hr.induct (P := fun acts s => ∀ ms : List LogMeld, collect (Act.callOf p) acts = ms.map LogMeld.encode →
    (∀ m ∈ ms, m.Valid) → LogMeld.PonOnce ms → (s.melds p).map (·.naki_code) = (LogMeld.onTable ms).map LogMeld.encode) ?_ ?_
  · intro ms hms _ _
    have : ms = [] := by simpa [collect] using hms.symm
    subst this
    rw [congrArg RoundSt.melds d.state_eq]
    rfl
  intro acts s act s' _ ih he ms hms hv hone
  unfold collect at hms ih
  rw [List.flatMap_append, List.flatMap_singleton] at hms
  have same : act.callOf p = [] → s'.melds p = s.melds p →
      (s'.melds p).map (·.naki_code) = (LogMeld.onTable ms).map LogMeld.encode := by
    intro h1 h2
    rw [h1, List.append_nil] at hms
    rw [h2]
    exact ih ms hms hv hone
  cases he with
  | dora => exact same rfl rfl
  | declare => exact same rfl rfl
  | accept => exact same rfl rfl
  | draw hp e => exact same rfl (by rw [congrArg RoundSt.melds e.state_eq]; rfl)
  | discard hp e => exact same rfl (by rw [congrArg RoundSt.melds e.state_eq]; rfl)
  | @call q code _ e =>
    by_cases hq : q = p
    · subst hq
      rw [show (Act.call q code).callOf q = [code] by simp [Act.callOf]] at hms
      rcases List.eq_nil_or_concat ms with rfl | ⟨ms, m, rfl⟩
      · simp at hms
      rw [List.concat_eq_append] at hms hv hone ⊢
      rw [List.map_append, List.map_singleton] at hms
      obtain ⟨hms1, hms2⟩ := List.append_inj' hms rfl
      simp only [List.cons.injEq, and_true] at hms2
      subst hms2
      have hv' : ∀ x ∈ ms, x.Valid := fun x hx => hv x (by simp [hx])
      have hvm := hv m (by simp)
      have hone' : LogMeld.PonOnce ms := fun k => by
        have := hone k
        rw [List.countP_append] at this
        omega
      have ih := ih ms hms1 hv' hone'
      have hcode : e.naki.naki_code = m.encode := e.code_eq
      rw [congrArg RoundSt.melds e.state_eq]
      show (setAt s.melds q _ q).map _ = _
      rw [setAt_same, onTable_snoc]
      have hk := kakan_encode m hvm
      by_cases hkk : is_kakan m.encode = true
      · rw [if_pos hkk]
        obtain ⟨src, k, u, w, rfl⟩ := hk.1 hkk
        have hex := e.exposed_eq
        rw [(C93_tiles _ hvm).1] at hex
        have hex1 : e.ex.headD 0 / 4 = k := by
          obtain ⟨_, _, hu, _⟩ := hvm
          have : e.ex = [4 * k + u] := by
            have := congrArg (fun r => match r with | .ok (x, _) => x | .error _ => []) hex
            simpa [LogMeld.tiles] using this.symm
          rw [this]
          show (4 * k + u) / 4 = k
          omega
        rw [hex1]
        obtain ⟨f1, f2⟩ := map_filter_codes (s.melds q) _ ih (fun x hx => hv' x ((onTable_sublist ms).subset hx)) k
        have hself : isPonOf k e.naki = false := isPonOf_encode _ hvm e.naki hcode k
        have hcount : (s.melds q ++ [e.naki]).countP (isPonOf k) ≤ 1 := by
          rw [List.countP_append, f2]
          have := (onTable_sublist ms).countP_le (p := LogMeld.IsPonOf k)
          have := hone' k
          simp [hself]
          omega
        rw [removePon_filter k _ hcount, List.filter_append, List.map_append, List.map_append, f1]
        simp [hself, hcode]
      · rw [if_neg hkk]
        have hno : ¬ ∃ src k u w, m = .kakan src k u w := fun h => hkk (hk.2 h)
        cases m with
        | kakan src k u w => exact absurd ⟨_, _, _, _, rfl⟩ hno
        | _ => rw [List.map_append, List.map_append, ih]; simp [hcode]
    · refine same (by simp [Act.callOf, hq]) ?_
      rw [congrArg RoundSt.melds e.state_eq]
      show setAt s.melds q _ p = _
      rw [setAt_ne _ _ _ _ (fun h => hq h.symm)]

/-! ### C108 -/

/-- C108: the dora indicators are the first one and those turned later, in order; the discard table of player `p` has a
1 exactly in the slots of the tiles the player has discarded, also if they were called; counters and dealer are those of
the log. -/
theorem C108_table {est : Estimate} {sh : List Int → Except PyErr Int} {g : GameInfo} {a : InitAttr}
    {c : RoundCfg} {s0 : RoundSt} (hi : initRound est sh g a = .ok (c, s0)) {acts : List Act} {s : RoundSt}
    (hr : Reached c s0 acts s) :
    (∃ round honba sticks x y first, a.seed = .ok [round, honba, sticks, x, y, first] ∧
      s.doras = first :: collect Act.doras acts ∧ c.honba = honba ∧
      s.kyotaku = sticks + (acts.filter (fun b => match b with | .accept _ => true | _ => false)).length) ∧
    a.oya = .ok c.parent ∧ c.parent < 4 ∧
    ∀ p k, s.sutehai_tensors p k = if (collect (Act.discarded p) acts).any (fun t => decide (InSlot t k)) then 1 else 0 := by
  obtain ⟨d⟩ := initRound_ok hi
  refine ⟨⟨d.curr_round, d.honba, d.kyotaku, d.x, d.y, d.dora0, d.seed_eq, ?_, ?_, ?_⟩, ?_, ?_, ?_⟩
  · refine hr.induct (P := fun acts s => s.doras = d.dora0 :: collect Act.doras acts) ?_ ?_
    · rw [congrArg RoundSt.doras d.state_eq]; rfl
    intro acts s act s' _ ih he
    unfold collect at ih ⊢
    rw [List.flatMap_append, List.flatMap_singleton]
    cases he with
    | dora => show s.doras ++ [_] = _; rw [ih]; rfl
    | declare => simpa [Act.doras] using ih
    | accept => simpa [Act.doras] using ih
    | draw hp e => rw [congrArg RoundSt.doras e.state_eq]; show s.doras = _; simpa [Act.doras] using ih
    | discard hp e => rw [congrArg RoundSt.doras e.state_eq]; show s.doras = _; simpa [Act.doras] using ih
    | call e => rw [congrArg RoundSt.doras e.state_eq]; simpa [Act.doras] using ih
  · rw [congrArg RoundCfg.honba d.cfg_eq]
  · refine hr.induct (P := fun acts s => s.kyotaku = d.kyotaku +
      (acts.filter (fun b => match b with | .accept _ => true | _ => false)).length) ?_ ?_
    · rw [congrArg RoundSt.kyotaku d.state_eq]; simp
    intro acts s act s' _ ih he
    rw [List.filter_append]
    cases he with
    | dora => simpa using ih
    | declare => simpa using ih
    | accept => show s.kyotaku + 1 = _; rw [ih]; simp; omega
    | draw hp e => rw [congrArg RoundSt.kyotaku e.state_eq]; show s.kyotaku = _; simpa using ih
    | discard hp e => rw [congrArg RoundSt.kyotaku e.state_eq]; show s.kyotaku = _; simpa using ih
    | call e => rw [congrArg RoundSt.kyotaku e.state_eq]; simpa using ih
  · rw [congrArg RoundCfg.parent d.cfg_eq]; exact d.parent_eq
  · rw [congrArg RoundCfg.parent d.cfg_eq]; exact d.parent_lt
  · intro p k
    refine hr.induct (P := fun acts s => s.sutehai_tensors p k =
      if (collect (Act.discarded p) acts).any (fun t => decide (InSlot t k)) then 1 else 0) ?_ ?_
    · rw [congrArg RoundSt.sutehai_tensors d.state_eq]; rfl
    intro acts s act s' _ ih he
    unfold collect at ih ⊢
    rw [List.flatMap_append, List.flatMap_singleton, List.any_append]
    have same : act.discarded p = [] → s'.sutehai_tensors p k = s.sutehai_tensors p k →
        s'.sutehai_tensors p k = if (acts.flatMap (Act.discarded p)).any (fun t => decide (InSlot t k)) ||
          (act.discarded p).any (fun t => decide (InSlot t k)) then 1 else 0 := by
      intro h1 h2
      rw [h1, h2, ih]
      simp
    cases he with
    | dora => exact same rfl rfl
    | declare => exact same rfl rfl
    | accept => exact same rfl rfl
    | draw hp e => exact same rfl (by rw [congrArg RoundSt.sutehai_tensors e.state_eq]; rfl)
    | call e => exact same rfl (by rw [congrArg RoundSt.sutehai_tensors e.state_eq])
    | @discard q t _ hp e =>
      rw [congrArg RoundSt.sutehai_tensors e.state_eq]
      show setAt s.sutehai_tensors q (fun k => if k ∈ tile2idx t then 1 else s.sutehai_tensors q k) p k = _
      by_cases hq : p = q
      · subst hq
        rw [setAt_same, ih]
        have := mem_tile2idx t k
        by_cases hk : k ∈ tile2idx t
        · simp [Act.discarded, hk, this.1 hk]
        · have hk' : ¬ InSlot t k := fun h => hk (this.2 h)
          simp [Act.discarded, hk, hk']
      · rw [setAt_ne _ _ _ _ hq, ih]
        have : ¬ q = p := fun h => hq h.symm
        simp [Act.discarded, this]

/-- the hypotheses of `C107_melds` can be met, and the pon is replaced by the added kan -/
example : let ms := [LogMeld.pon 3 20 3 2, .chi 3 4 0 2 3 1, .kakan 3 20 3 2]
    (∀ m ∈ ms, m.Valid) ∧ LogMeld.PonOnce ms ∧ LogMeld.onTable ms = [.chi 3 4 0 2 3 1, .kakan 3 20 3 2] := by
  refine ⟨?_, ?_, by decide⟩
  · intro m hm
    simp only [List.mem_cons, List.not_mem_nil, or_false] at hm
    rcases hm with rfl | rfl | rfl <;> simp [LogMeld.Valid]
  · intro k
    show List.countP (LogMeld.IsPonOf k) ([.pon 3 20 3 2] ++ [.chi 3 4 0 2 3 1, .kakan 3 20 3 2]) ≤ 1
    rw [List.countP_append, show List.countP (LogMeld.IsPonOf k) [.chi 3 4 0 2 3 1, .kakan 3 20 3 2] = 0 from rfl]
    exact List.countP_le_length

end MJ
