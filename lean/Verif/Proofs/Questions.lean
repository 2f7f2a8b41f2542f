import Verif.Proofs.Transfer
/-!
The hands behind the questions exist.
-/
namespace MJ
open Code Spec

theorem Spec.ProperCalls.init {acts : List Act} {x : Act} (h : ProperCalls (acts ++ [x])) : ProperCalls acts :=
  ⟨fun pre p m post t e => h.claims pre p m (post ++ [x]) t (by simp [e]),
    fun pre p src k u w post e => h.extending pre p src k u w (post ++ [x]) (by simp [e])⟩

theorem calledTile_encode (m : LogMeld) (hv : m.Valid) : calledTile m.encode = m.tiles.2 := by
  unfold calledTile
  rw [(C93_tiles m hv).1]

/-- 1 if another player has just discarded a tile of kind `k` -/
def claimable (p k : Nat) : Option Act → Nat
  | some (.discard q t) => if q ≠ p ∧ t / 4 = k then 1 else 0
  | _ => 0

/-- every called tile was discarded by another player -/
theorem called_shown (p k : Nat) : ∀ acts : List Act, ProperCalls acts → (∀ p c, Act.call p c ∈ acts → WellFormed c) →
    kindCount (collect (Act.called p) acts) k + claimable p k (lastMove acts) ≤ kindCount (collect (Act.shownTo p) acts) k := by
  refine snoc_induct ?_ ?_
  · intro _ _; simp [collect, kindCount, lastMove, claimable]
  · intro acts x ih hp hw
    have ih := ih hp.init (fun p c h => hw p c (by simp [h]))
    rw [collect_snoc, collect_snoc, kindCount_append, kindCount_append, lastMove_snoc]
    cases x with
    | discard q t =>
      simp only [Act.isMove, if_true, Act.called, Act.shownTo, claimable]
      by_cases hq : q = p
      · simp [hq, kindCount]; unfold kindCount at ih; omega
      · simp only [hq, if_false, ne_eq, not_false_eq_true, true_and, kindCount_one]
        simp only [kindCount, List.countP_nil] at ih ⊢
        omega
    | call q c =>
      obtain ⟨m, hv, rfl⟩ := (C93_covers c).1 (hw q c (by simp))
      simp only [Act.isMove, if_true, Act.called, Act.shownTo, claimable, calledTile_encode m hv]
      by_cases hq : q = p
      · subst hq
        rw [if_pos rfl, if_pos rfl]
        cases ht : m.tiles.2 with
        | none => simp only [Option.toList_none, kindCount, List.countP_nil] at ih ⊢; omega
        | some t =>
          obtain ⟨q', hq', hlm⟩ := hp.claims acts q m [] t rfl hv ht
          rw [hlm] at ih
          simp only [claimable, ne_eq, hq', not_false_eq_true, true_and] at ih
          rw [Option.toList_some, kindCount_one]
          simp only [kindCount, List.countP_nil] at ih ⊢
          omega
      · rw [if_neg hq, if_neg hq]
        simp only [kindCount, List.countP_nil] at ih ⊢
        omega
    | draw q t => simp only [Act.isMove, if_true, Act.called, Act.shownTo, claimable, kindCount, List.countP_nil] at ih ⊢; omega
    | dora t => simpa [Act.isMove, Act.called, Act.shownTo, kindCount] using ih
    | declare q => simpa [Act.isMove, Act.called, Act.shownTo, kindCount] using ih
    | accept q => simpa [Act.isMove, Act.called, Act.shownTo, kindCount] using ih

/-- the kans of player `p` -/
def Spec.Act.kanOf (p : Nat) : Act → Bool
  | .call q c => decide (q = p) && (is_minkan c || is_ankan c || is_kakan c)
  | _ => false

theorem meld_length (m : LogMeld) (hv : m.Valid) : m.tiles.1.length + m.tiles.2.toList.length =
    3 * (if is_kakan m.encode = false then 1 else 0) +
      if (is_minkan m.encode || is_ankan m.encode || is_kakan m.encode) = true then 1 else 0 := by
  obtain ⟨_, ⟨_, _, t3, t4, t5⟩, _⟩ := C93_tiles m hv
  rw [t3, t4, t5]
  cases m with
  | chi src k x y z w =>
    obtain ⟨_, _, _, _, _, _, h7⟩ := hv
    have : w = 0 ∨ w = 1 ∨ w = 2 := by omega
    rcases this with rfl | rfl | rfl <;> rfl
  | pon src k u w =>
    obtain ⟨_, _, h3, h4⟩ := hv
    have : w = 0 ∨ w = 1 ∨ w = 2 := by omega
    have : u = 0 ∨ u = 1 ∨ u = 2 ∨ u = 3 := by omega
    rcases this with rfl | rfl | rfl | rfl <;> rcases ‹w = 0 ∨ w = 1 ∨ w = 2› with rfl | rfl | rfl <;> rfl
  | kakan => rfl
  | minkan src t =>
    obtain ⟨_, _, h3⟩ := hv
    simp only [LogMeld.tiles, LogMeld.type, LogMeld.copies]
    obtain ⟨k, i, rfl, hi⟩ : ∃ k i, t = 4 * k + i ∧ i < 4 := ⟨t / 4, t % 4, by omega, by omega⟩
    rw [show (4 * k + i) / 4 = k by omega]
    have : i = 0 ∨ i = 1 ∨ i = 2 ∨ i = 3 := by omega
    rcases this with rfl | rfl | rfl | rfl <;> simp
  | ankan t => rfl

/-- a set is three tiles, a kan four -/
theorem table_length (p : Nat) : ∀ acts : List Act, (∀ p c, Act.call p c ∈ acts → WellFormed c) →
    (collect (Act.exposed p) acts ++ collect (Act.called p) acts).length = 3 * setsOf p acts + acts.countP (Act.kanOf p) := by
  refine snoc_induct ?_ ?_
  · intro _; simp [collect, setsOf]
  · intro acts x ih hw
    have ih := ih (fun p c h => hw p c (by simp [h]))
    rw [collect_snoc, collect_snoc, setsOf_snoc, List.countP_append]
    simp only [List.length_append] at ih ⊢
    cases x with
    | call q c =>
      obtain ⟨m, hv, rfl⟩ := (C93_covers c).1 (hw q c (by simp))
      have hl := meld_length m hv
      have he : exposedTiles m.encode = m.tiles.1 := by unfold exposedTiles; rw [(C93_tiles m hv).1]
      simp only [Act.exposed, Act.called, Act.newSet, calledTile_encode m hv, he, List.countP_cons, List.countP_nil, Act.kanOf]
      by_cases hq : q = p
      · simp only [hq, if_true, true_and, decide_true, Bool.true_and, Nat.zero_add]
        omega
      · simp only [hq, if_false, false_and, decide_false, Bool.false_and, Bool.false_eq_true, List.length_nil]
        omega
    | _ => simp only [Act.exposed, Act.called, Act.newSet, List.countP_cons, List.countP_nil, Act.kanOf, List.length_nil] <;> simp <;> omega

/-! ### the melds in front of a player -/

/-- the tiles of a meld as they are handed over -/
def argTiles (c : Nat) : List Nat :=
  match nakiToMeld c with
  | .ok m => m.tiles
  | .error _ => []

def kanCode (c : Nat) : Bool := is_minkan c || is_ankan c || is_kakan c

theorem kindCount_map {l l' : List Nat} (h : (l.map (· / 4)).Perm (l'.map (· / 4))) (k : Nat) : kindCount l k = kindCount l' k := by
  have : ∀ l : List Nat, kindCount l k = (l.map (· / 4)).count k := by
    intro l
    unfold kindCount List.count
    rw [List.countP_map]
    rfl
  rw [this, this, h.count_eq]

/-- what is handed over for a meld -/
theorem arg_meld (m : LogMeld) (hv : m.Valid) : ∃ arg, nakiToMeld m.encode = .ok arg ∧ Describes m.encode arg ∧
    MeldArg.isKan arg = kanCode m.encode ∧
    ∀ k, kindCount arg.tiles k = match m with
      | .kakan _ j _ _ => if k = j then 4 else 0
      | _ => kindCount (m.tiles.1 ++ m.tiles.2.toList) k := by
  obtain ⟨hex, hty, _, _⟩ := C93_tiles m hv
  obtain ⟨arg, harg, hd⟩ := C26_melds m.encode ((C93_covers _).2 ⟨m, hv, rfl⟩)
  refine ⟨arg, harg, hd, ?_⟩
  obtain ⟨_, _, ex, acq, ty, h1, h2, _, h4⟩ := hd
  have hmt : meldType m.encode = some m.type := by
    obtain ⟨t1, t2, t3, t4, t5⟩ := hty
    rw [meldType_eq, t1, t2, t3, t4, t5]
    cases m <;> rfl
  rw [hmt] at h2
  cases h2
  have hpair : m.tiles = (ex, acq) := Except.ok.inj (hex.symm.trans h1)
  obtain ⟨_, _, t3, t4, t5⟩ := hty
  unfold kanCode MeldArg.isKan
  rw [t3, t4, t5, hpair]
  cases m with
  | chi => exact ⟨by rw [h4.1]; rfl, fun k => kindCount_map h4.2.1 k⟩
  | pon => exact ⟨by rw [h4.1]; rfl, fun k => kindCount_map h4.2.1 k⟩
  | kakan src j u w =>
    refine ⟨by rw [h4.1]; rfl, fun k => ?_⟩
    have he : ex = [4 * j + u] := (congrArg Prod.fst hpair).symm
    have hu : u < 4 := by obtain ⟨_, _, hu, _⟩ := hv; exact hu
    have h5 := h4.2
    rw [he] at h5
    have h6 : kindCount arg.tiles k = kindCount (List.replicate 4 (4 * j)) k := by
      apply kindCount_map
      rw [h5]
      simp only [List.headD_cons, List.map_replicate]
      rw [show (4 * j + u) / 4 = j by omega, show 4 * j / 4 = j by omega]
    rw [h6]
    simp only [kindCount, List.countP_replicate]
    by_cases hk : k = j
    · subst hk
      rw [if_pos rfl, if_pos (by simp)]
    · rw [if_neg hk, if_neg (by simp; omega)]
  | minkan => exact ⟨by rw [h4.1]; rfl, fun k => kindCount_map (h4.2.map _) k⟩
  | ankan t =>
    have ha : acq = none := (congrArg Prod.snd hpair).symm
    refine ⟨by rw [h4.1]; rfl, fun k => ?_⟩
    rw [ha]
    simp only [Option.toList_none, List.append_nil]
    exact kindCount_map (h4.2.map _) k

theorem argTiles_eq {c : Nat} {arg : MeldArg} (h : nakiToMeld c = .ok arg) : argTiles c = arg.tiles := by
  unfold argTiles; rw [h]

theorem kindCount_flatMap_cons {α : Type} (f : α → List Nat) (x : α) (l : List α) (k : Nat) :
    kindCount ((x :: l).flatMap f) k = kindCount (f x) k + kindCount (l.flatMap f) k := by
  rw [List.flatMap_cons, kindCount_append]

/-- removing the pon that is extended -/
theorem removePon_count {j : Nat} (f : Naki → List Nat) (k : Nat) {a : Nat} : ∀ l : List Naki,
    (∀ n ∈ l, isPonOf j n = true → kindCount (f n) k = a) → (∃ n ∈ l, isPonOf j n = true) →
    kindCount (l.flatMap f) k = kindCount ((removePon j l).flatMap f) k + a
  | [], _, h => by obtain ⟨n, hn, _⟩ := h; simp at hn
  | n :: l, ha, h => by
    unfold removePon
    by_cases hn : isPonOf j n = true
    · rw [if_pos hn, kindCount_flatMap_cons, ha n (by simp) hn]
      omega
    · rw [if_neg hn, kindCount_flatMap_cons, kindCount_flatMap_cons]
      have := removePon_count f k l (fun n hn => ha n (by simp [hn])) (by
        obtain ⟨n', h1, h2⟩ := h
        rcases List.mem_cons.1 h1 with rfl | h1
        · exact absurd h2 hn
        · exact ⟨n', h1, h2⟩)
      omega

theorem removePon_kans {j : Nat} : ∀ l : List Naki, (∀ n ∈ l, isPonOf j n = true → kanCode n.naki_code = false) →
    (removePon j l).countP (fun n => kanCode n.naki_code) = l.countP (fun n => kanCode n.naki_code)
  | [], _ => rfl
  | n :: l, h => by
    unfold removePon
    by_cases hn : isPonOf j n = true
    · rw [if_pos hn, List.countP_cons, h n (by simp) hn]; simp
    · rw [if_neg hn, List.countP_cons, List.countP_cons, removePon_kans l (fun n hn => h n (by simp [hn]))]

theorem removePon_keeps {j : Nat} {n : Naki} (hn : isPonOf j n = false) : ∀ l : List Naki, n ∈ l → n ∈ removePon j l
  | x :: l, h => by
    unfold removePon
    rcases List.mem_cons.1 h with rfl | h
    · rw [if_neg (by simp [hn])]; simp
    · by_cases hx : isPonOf j x = true
      · rw [if_pos hx]; exact h
      · rw [if_neg hx]; exact List.mem_cons_of_mem _ (removePon_keeps hn l h)

/-- a well-formed pon of kind `k` -/
theorem pon_of {n : Naki} (hw : WellFormed n.naki_code) {k : Nat} (h : isPonOf k n = true) :
    ∃ src u w, (LogMeld.pon src k u w).Valid ∧ n.naki_code = (LogMeld.pon src k u w).encode := by
  obtain ⟨m, hv, hm⟩ := (C93_covers _).1 hw
  rw [isPonOf_encode m hv n hm.symm] at h
  cases m with
  | pon src j u w =>
    simp only [LogMeld.IsPonOf, beq_iff_eq, decide_eq_true_eq] at h
    subst h
    exact ⟨src, u, w, hv, hm.symm⟩
  | _ => simp [LogMeld.IsPonOf] at h

theorem kakan_exposed {src k u w : Nat} (hv : (LogMeld.kakan src k u w).Valid) {ex : List Nat} {acq : Option Nat}
    (h : get_exposed (LogMeld.kakan src k u w).encode = .ok (ex, acq)) : ex = [4 * k + u] ∧ acq = none ∧ (ex.headD 0) / 4 = k := by
  have := Except.ok.inj (h.symm.trans (C93_tiles _ hv).1)
  have h1 : ex = [4 * k + u] := congrArg Prod.fst this
  have h2 : acq = none := congrArg Prod.snd this
  obtain ⟨_, _, h3, _⟩ := hv
  refine ⟨h1, h2, ?_⟩
  rw [h1]
  show (4 * k + u) / 4 = k
  omega

/-- a pon stays until it is extended -/
theorem pon_stays {c : RoundCfg} {s1 : RoundSt} {p k : Nat} {n : Naki} (hn : n ∈ s1.melds p) (hk : isPonOf k n = true)
    {acts : List Act} {s : RoundSt} (hr : Reached c s1 acts s) (hw : ∀ p c, Act.call p c ∈ acts → WellFormed c)
    (hno : ∀ src u w, (LogMeld.kakan src k u w).Valid → Act.call p (LogMeld.kakan src k u w).encode ∉ acts) :
    n ∈ s.melds p := by
  revert hw hno
  refine hr.induct (P := fun acts s => (∀ p c, Act.call p c ∈ acts → WellFormed c) →
    (∀ src u w, (LogMeld.kakan src k u w).Valid → Act.call p (LogMeld.kakan src k u w).encode ∉ acts) → n ∈ s.melds p) ?_ ?_
  · intro _ _; exact hn
  · intro acts s act s' _ ih he hw hno
    have ih := ih (fun p c h => hw p c (by simp [h])) (fun src u w hv h => hno src u w hv (by simp [h]))
    cases he with
    | dora => exact ih
    | declare => exact ih
    | accept => exact ih
    | draw hp e => rw [e.state_eq]; exact ih
    | discard hp e => rw [e.state_eq]; exact ih
    | @call q code _ e =>
      rw [e.state_eq]
      show n ∈ setAt s.melds q _ p
      by_cases hq : p = q
      · subst hq
        rw [setAt_same]
        split
        · rename_i hkk
          obtain ⟨m, hv, rfl⟩ := (C93_covers code).1 (hw p code (by simp))
          obtain ⟨src, j, u, w, rfl⟩ := (kakan_encode m hv).1 hkk
          have hjk : j ≠ k := by rintro rfl; exact hno src u w hv (by simp)
          obtain ⟨_, _, e3⟩ := kakan_exposed hv e.exposed_eq
          refine removePon_keeps ?_ _ (List.mem_append_left _ ih)
          rw [e3]
          unfold isPonOf at hk ⊢
          simp only [Bool.and_eq_true, beq_iff_eq] at hk
          rw [hk.1, hk.2]
          simpa using fun h => hjk h.symm
        · exact List.mem_append_left _ ih
      · rw [setAt_ne _ _ _ _ hq]; exact ih

/-- the melds in front of the players, as they are handed over -/
structure Laid (acts : List Act) (s : RoundSt) : Prop where
  codes : ∀ p, ∀ n ∈ s.melds p, WellFormed n.naki_code
  kans : ∀ p, (s.melds p).countP (fun n => kanCode n.naki_code) = acts.countP (Act.kanOf p)
  tiles : ∀ p k, kindCount ((s.melds p).flatMap (fun n => argTiles n.naki_code)) k =
    kindCount (collect (Act.exposed p) acts ++ collect (Act.called p) acts) k

theorem pon_whole {src k u w : Nat} (hu : u < 4) (hw : w < 3) :
    (∀ t ∈ (LogMeld.pon src k u w).tiles.1 ++ (LogMeld.pon src k u w).tiles.2.toList, t / 4 = k) ∧
    ((LogMeld.pon src k u w).tiles.1 ++ (LogMeld.pon src k u w).tiles.2.toList).length = 3 := by
  have h1 : w = 0 ∨ w = 1 ∨ w = 2 := by omega
  have h2 : u = 0 ∨ u = 1 ∨ u = 2 ∨ u = 3 := by omega
  constructor
  · intro t ht
    rcases h2 with rfl | rfl | rfl | rfl <;> rcases h1 with rfl | rfl | rfl <;>
      simp [LogMeld.tiles, LogMeld.copies] at ht <;> omega
  · rcases h2 with rfl | rfl | rfl | rfl <;> rcases h1 with rfl | rfl | rfl <;> rfl

theorem pon_tiles {src k u w : Nat} (hv : (LogMeld.pon src k u w).Valid) (j : Nat) :
    kindCount (argTiles (LogMeld.pon src k u w).encode) j = (if j = k then 3 else 0) ∧
    kanCode (LogMeld.pon src k u w).encode = false := by
  obtain ⟨arg, h1, _, h3, h4⟩ := arg_meld _ hv
  constructor
  · rw [argTiles_eq h1, h4]
    obtain ⟨hall, hlen⟩ := pon_whole (src := src) (k := k) hv.2.2.1 hv.2.2.2
    show kindCount _ j = _
    unfold kindCount
    by_cases hj : j = k
    · subst hj
      rw [if_pos rfl, List.countP_eq_length.2, hlen]
      intro t ht; simpa using hall t ht
    · rw [if_neg hj, List.countP_eq_zero]
      intro t ht; have := hall t ht; simp; omega
  · obtain ⟨_, ⟨_, _, t3, t4, t5⟩, _⟩ := C93_tiles _ hv
    unfold kanCode
    rw [t3, t4, t5]; rfl

theorem laid_reached {c : RoundCfg} {s0 : RoundSt} (h0 : ∀ p, s0.melds p = []) {acts : List Act} {s : RoundSt}
    (hr : Reached c s0 acts s) (hw : ∀ p c, Act.call p c ∈ acts → WellFormed c) (hp : ProperCalls acts) : Laid acts s := by
  revert hw hp
  induction hr with
  | start =>
    intro _ _
    exact ⟨fun p n hn => by rw [h0 p] at hn; simp at hn, fun p => by rw [h0 p]; rfl, fun p k => by rw [h0 p]; rfl⟩
  | @next acts s s' ev act hr ha hs ih =>
    intro hw hp
    have he := Reached.effect ha hs
    have ih := ih (fun p c h => hw p c (by simp [h])) hp.init
    have plain : ∀ x : Act, x.isMove = false ∨ x.isDraw = true ∨ x.isDiscard = true → s'.melds = s.melds → Laid (acts ++ [x]) s' := by
      intro x hx hm
      refine ⟨by rw [hm]; exact ih.codes, fun p => ?_, fun p k => ?_⟩
      · rw [hm, ih.kans, List.countP_append]
        cases x <;> simp [Act.isMove, Act.isDraw, Act.isDiscard, Act.kanOf] at hx ⊢
      · rw [hm, ih.tiles, collect_snoc, collect_snoc]
        cases x <;> simp [Act.isMove, Act.isDraw, Act.isDiscard, Act.exposed, Act.called] at hx ⊢
    cases he with
    | dora => exact plain _ (.inl rfl) rfl
    | declare => exact plain _ (.inl rfl) rfl
    | accept => exact plain _ (.inl rfl) rfl
    | draw _ e => exact plain _ (.inr (.inl rfl)) (by rw [e.state_eq]; rfl)
    | discard _ e => exact plain _ (.inr (.inr rfl)) (by rw [e.state_eq]; rfl)
    | @call q code _ e =>
      obtain ⟨m, hv, rfl⟩ := (C93_covers code).1 (hw q code (by simp))
      obtain ⟨hex, _⟩ := C93_tiles m hv
      have hpair : m.tiles = (e.ex, e.acq) := Except.ok.inj (hex.symm.trans e.exposed_eq)
      have hexp : exposedTiles m.encode = m.tiles.1 := by unfold exposedTiles; rw [hex]
      obtain ⟨arg, g1, g2, g3, g4⟩ := arg_meld m hv
      have hmelds : s'.melds = setAt s.melds q (if is_kakan m.encode then removePon ((e.ex.headD 0) / 4) (s.melds q ++ [e.naki])
          else s.melds q ++ [e.naki]) := congrArg RoundSt.melds e.state_eq
      have hall : ∀ n ∈ s.melds q ++ [e.naki], WellFormed n.naki_code := by
        intro n hn
        rcases List.mem_append.1 hn with hn | hn
        · exact ih.codes q n hn
        · simp only [List.mem_singleton] at hn
          subst hn
          rw [e.code_eq]
          exact hw q _ (by simp)
      have hother : ∀ p, p ≠ q → s'.melds p = s.melds p := by intro p hpq; rw [hmelds, setAt_ne _ _ _ _ hpq]
      have hown : s'.melds q = if is_kakan m.encode then removePon ((e.ex.headD 0) / 4) (s.melds q ++ [e.naki])
          else s.melds q ++ [e.naki] := by rw [hmelds, setAt_same]
      refine ⟨?_, ?_, ?_⟩
      · intro p n hn
        by_cases hpq : p = q
        · subst hpq
          rw [hown] at hn
          refine hall n ?_
          split at hn
          · exact mem_removePon hn
          · exact hn
        · rw [hother p hpq] at hn; exact ih.codes p n hn
      · intro p
        rw [List.countP_append]
        by_cases hpq : p = q
        · subst hpq
          have h1 : (s.melds p ++ [e.naki]).countP (fun n => kanCode n.naki_code) =
              acts.countP (Act.kanOf p) + [Act.call p m.encode].countP (Act.kanOf p) := by
            rw [List.countP_append, ih.kans]
            simp only [List.countP_cons, List.countP_nil, e.code_eq, Act.kanOf, kanCode, decide_true, Bool.true_and]
          rw [← h1, hown]
          split
          · refine removePon_kans _ ?_
            intro n hn hk
            obtain ⟨src, u, w, hv', hc⟩ := pon_of (hall n hn) hk
            rw [hc]
            exact (pon_tiles hv' 0).2
          · rfl
        · rw [hother p hpq, ih.kans]
          simp only [List.countP_cons, List.countP_nil, Act.kanOf]
          have : decide (q = p) = false := by simpa using fun h => hpq h.symm
          simp [this]
      · intro p k
        rw [collect_snoc, collect_snoc]
        have hcount : kindCount (collect (Act.exposed p) acts ++ Act.exposed p (.call q m.encode) ++ (collect (Act.called p) acts ++
            Act.called p (.call q m.encode))) k = kindCount (collect (Act.exposed p) acts ++ collect (Act.called p) acts) k +
            if q = p then kindCount (m.tiles.1 ++ m.tiles.2.toList) k else 0 := by
          simp only [kindCount_append, Act.exposed, Act.called, hexp, calledTile_encode m hv]
          by_cases hqp : q = p
          · simp only [hqp, if_true]; omega
          · simp only [hqp, if_false, kindCount, List.countP_nil]; omega
        rw [hcount, ← ih.tiles p k]
        by_cases hpq : p = q
        · subst hpq
          rw [if_pos rfl, hown]
          have hsnoc : kindCount ((s.melds p ++ [e.naki]).flatMap (fun n => argTiles n.naki_code)) k =
              kindCount ((s.melds p).flatMap (fun n => argTiles n.naki_code)) k + kindCount arg.tiles k := by
            rw [List.flatMap_append, kindCount_append]
            simp only [List.flatMap_cons, List.flatMap_nil, List.append_nil, e.code_eq, argTiles_eq g1]
          by_cases hkk : is_kakan m.encode = true
          · rw [if_pos hkk]
            obtain ⟨src, j, u, w, rfl⟩ := (kakan_encode m hv).1 hkk
            obtain ⟨e1, e2, e3⟩ := kakan_exposed hv e.exposed_eq
            rw [e3]
            have hpon : ∃ n ∈ s.melds p ++ [e.naki], isPonOf j n = true := by
              obtain ⟨pre1, pre2, src', u', w', hv', hpre, hno⟩ := hp.extending acts p src j u w [] rfl hv
              subst hpre
              obtain ⟨s1, s2, r1, r2, r3, r4⟩ := hr.at
              cases r2 with
              | call e' =>
                have hpk : is_kakan (LogMeld.pon src' j u' w').encode = false := by
                  have := (kakan_encode _ hv').not.2 (by rintro ⟨_, _, _, _, h⟩; cases h)
                  simpa using this
                have hmem : e'.naki ∈ s2.melds p := by
                  rw [congrArg RoundSt.melds e'.state_eq]
                  show e'.naki ∈ setAt s1.melds p _ p
                  rw [setAt_same, hpk]
                  simp
                have hk' : isPonOf j e'.naki = true := by
                  rw [isPonOf_encode _ hv' e'.naki e'.code_eq]
                  simp [LogMeld.IsPonOf]
                exact ⟨e'.naki, List.mem_append_left _ (pon_stays hmem hk' r4 (fun p c h => hw p c (by simp [h])) hno), hk'⟩
            have hrem := removePon_count (j := j) (fun n => argTiles n.naki_code) k (a := if k = j then 3 else 0)
              (s.melds p ++ [e.naki]) (by
                intro n hn hk
                obtain ⟨src, u, w, hv', hc⟩ := pon_of (hall n hn) hk
                show kindCount (argTiles n.naki_code) k = _
                rw [hc]
                exact (pon_tiles hv' k).1) hpon
            rw [hsnoc] at hrem
            have h4 : kindCount arg.tiles k = if k = j then 4 else 0 := g4 k
            have h5 : kindCount ((LogMeld.kakan src j u w).tiles.1 ++ (LogMeld.kakan src j u w).tiles.2.toList) k =
                if k = j then 1 else 0 := by
              show kindCount [4 * j + u] k = _
              rw [kindCount_one]
              obtain ⟨_, _, hu, _⟩ := hv
              rw [show (4 * j + u) / 4 = j by omega]
              by_cases hk : k = j
              · rw [if_pos hk, if_pos hk.symm]
              · rw [if_neg hk, if_neg (fun h => hk h.symm)]
            rw [h4] at hrem
            rw [h5]
            by_cases hk : k = j
            · rw [if_pos hk, if_pos hk] at hrem
              rw [if_pos hk]
              omega
            · rw [if_neg hk, if_neg hk] at hrem
              rw [if_neg hk]
              omega
          · rw [if_neg hkk, hsnoc]
            have h4 : kindCount arg.tiles k = kindCount (m.tiles.1 ++ m.tiles.2.toList) k := by
              have := g4 k
              cases m with
              | kakan src j u w => exact absurd ((kakan_encode _ hv).2 ⟨_, _, _, _, rfl⟩) hkk
              | _ => exact this
            rw [h4]
        · rw [if_neg (fun h => hpq h.symm), hother p hpq]; rfl

end MJ
