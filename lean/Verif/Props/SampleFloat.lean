import Verif.Model.SampleFloat
import Verif.Proofs.Float
import Verif.Props.Tensors
import Verif.Props.RoundFlags
/-!
C149: the samples are stored in `float32`, and this loses nothing.
-/
namespace MJ
open Spec

/-- Spec: the numbers of a round that the log gives are at most a million -/
structure Spec.PlainNumbers (a : InitAttr) : Prop where
  points : ∀ ten, a.ten = .ok ten → ∀ x ∈ ten, x.natAbs ≤ 1000000
  seed : ∀ seed, a.seed = .ok seed → ∀ x ∈ seed, x ≤ 1000000

/-- the numbers in a state object are at most `B` -/
structure ObjSized (B : Nat) (o : StateObj) : Prop where
  tsumo : o.remaining_tsumo.natAbs ≤ B
  discards : ∀ p k, (o.sutehai_tensors p k).natAbs ≤ 1
  double : ∀ p, o.double_reaches p ≤ 1
  reaches : ∀ p, o.reaches p ≤ 1
  ippatsu : ∀ p, o.ippatsu p ≤ 1
  scores : ∀ x ∈ o.scores, x.natAbs ≤ B
  sticks : o.kyotaku.natAbs ≤ B
  honba : o.honba.natAbs ≤ B
  rounds : o.rounds_remaining.natAbs ≤ B
  dealerships : ∀ x ∈ o.parent_rounds_remaining, x.natAbs ≤ B

theorem ObjSized.mono {B C : Nat} {o : StateObj} (h : ObjSized B o) (hc : B ≤ C) : ObjSized C o :=
  ⟨Nat.le_trans h.tsumo hc, h.discards, h.double, h.reaches, h.ippatsu, fun x hx => Nat.le_trans (h.scores x hx) hc, Nat.le_trans h.sticks hc,
    Nat.le_trans h.honba hc, Nat.le_trans h.rounds hc, fun x hx => Nat.le_trans (h.dealerships x hx) hc⟩

/-- the numbers in the configuration are at most `B` -/
structure CfgSized (B : Nat) (c : RoundCfg) : Prop where
  honba : c.honba.natAbs ≤ B
  rounds : c.rounds_remaining.natAbs ≤ B
  dealerships : ∀ x ∈ c.parent_rounds_remaining, x.natAbs ≤ B

/-- the same for a state and for everything it has recorded -/
structure Sized (B : Nat) (s : RoundSt) : Prop where
  tsumo : s.remaining_tsumo.natAbs ≤ B
  discards : ∀ p k, (s.sutehai_tensors p k).natAbs ≤ 1
  double : ∀ p, s.double_reaches p ≤ 1
  reaches : ∀ p, s.reaches p ≤ 1
  ippatsu : ∀ p, s.ippatsu p ≤ 1
  menzen : ∀ p, s.is_menzen p ≤ 1
  scores : ∀ x ∈ s.scores, x.natAbs ≤ B
  sticks : s.kyotaku.natAbs ≤ B
  tokens : ∀ t ∈ s.encoding_tokens, t ≤ 2 ^ 17
  kept : ∀ o, s.stateObj = some o → ObjSized B o
  turns : ∀ h ∈ s.halfturns, ObjSized B h.obj

theorem setAt_le_one {f : Nat → Nat} (h : ∀ p, f p ≤ 1) (q : Nat) {v : Nat} (hv : v ≤ 1) (p : Nat) : setAt f q v p ≤ 1 := by
  unfold setAt
  split
  · exact hv
  · exact h p

theorem clearIppatsu_le_one {f : Nat → Nat} (h : ∀ p, f p ≤ 1) (p : Nat) : clearIppatsu f p ≤ 1 := by
  unfold clearIppatsu
  split
  · exact Nat.zero_le _
  · exact h p

theorem discard_token_le {p k t : Nat} {b : Bool} (hp : p < 4) (h : discard2idx p k b = .ok t) : t ≤ 2 ^ 17 := by
  unfold discard2idx at h
  split at h
  · rename_i hk
    have key : ∀ p < 4, ∀ k < 37, ∀ b : Bool, (EventStateTypes.DISCARD <<< 13 ||| EventTypes.NAKI <<< 10 ||| p <<< 8
      ||| b.toNat <<< 7 ||| k) ≤ 2 ^ 17 := by decide +kernel
    injection h with h
    rw [← h]
    exact key p hp k hk b
  · cases h

theorem naki_token_le {p code t : Nat} (h : naki2idx p code = .ok t) : t ≤ 2 ^ 17 := by
  have key : ∀ st i, nakiToken st p i = .ok t → t ≤ 2 ^ 17 := by
    intro st i h
    unfold nakiToken at h
    dsimp only at h
    split at h
    · rename_i hle
      injection h with h
      rw [← h]
      exact hle
    · cases h
  unfold naki2idx at h
  split at h
  · repeat' split at h
    all_goals first
      | exact key _ _ h
      | cases h
  · cases h

theorem reach_token_le {p t : Nat} (h : reach2idx p = .ok t) : t ≤ 2 ^ 17 := by
  unfold reach2idx at h
  dsimp only at h
  split at h
  · split at h
    · rename_i hle
      injection h with h
      rw [← h]
      exact hle
    · cases h
  · cases h

theorem dora_token_le {k t : Nat} (h : new_dora2idx k = .ok t) : t ≤ 2 ^ 17 := by
  unfold new_dora2idx at h
  dsimp only at h
  split at h
  · split at h
    · rename_i hle
      injection h with h
      rw [← h]
      exact hle
    · cases h
  · cases h

theorem tokens_snoc {l : List Nat} {t : Nat} (h : ∀ x ∈ l, x ≤ 2 ^ 17) (ht : t ≤ 2 ^ 17) : ∀ x ∈ l ++ [t], x ≤ 2 ^ 17 := by
  intro x hx
  rcases List.mem_append.1 hx with hx | hx
  · exact h x hx
  · rw [List.mem_singleton.1 hx]; exact ht

theorem sized_step {B : Nat} {c : RoundCfg} (hc : CfgSized B c) {s s' : RoundSt} {act : Act} (h : Sized B s)
    (he : Effect c s act s') : Sized (B + 10) s' := by
  have hsc : ∀ x ∈ s.scores, x.natAbs ≤ B + 10 := fun x hx => Nat.le_trans (h.scores x hx) (by omega)
  have hk : s.kyotaku.natAbs ≤ B + 10 := Nat.le_trans h.sticks (by omega)
  have ht : s.remaining_tsumo.natAbs ≤ B := h.tsumo
  have hkept : ∀ o, s.stateObj = some o → ObjSized (B + 10) o := fun o ho => (h.kept o ho).mono (by omega)
  have hturns : ∀ t ∈ s.halfturns, ObjSized (B + 10) t.obj := fun t hh => (h.turns t hh).mono (by omega)
  have hh := hc.honba
  have hr := hc.rounds
  cases he with
  | dora _ htok =>
    exact ⟨by show (s.remaining_tsumo - 1).natAbs ≤ _; omega, h.discards, h.double, h.reaches, h.ippatsu, h.menzen, hsc, hk,
      tokens_snoc h.tokens (dora_token_le htok), hkept, hturns⟩
  | declare h1 h2 h3 h4 h5 =>
    exact ⟨Nat.le_trans ht (by omega), h.discards, h.double, h.reaches, setAt_le_one h.ippatsu _ (Nat.le_refl 1), h.menzen, hsc, hk,
      h.tokens, hkept, forall_obj_set (P := ObjSized (B + 10)) h3 (obj_markReach _) hturns⟩
  | @accept p i token t v h1 h2 h3 h4 h5 h6 =>
    refine ⟨Nat.le_trans ht (by omega), h.discards, ?_, setAt_le_one h.reaches _ (Nat.le_refl 1),
      setAt_le_one h.ippatsu _ (Nat.le_refl 1), h.menzen, ?_, ?_, tokens_snoc h.tokens (reach_token_le h6), hkept, hturns⟩
    · intro q
      show (if _ then setAt s.double_reaches p 1 else s.double_reaches) q ≤ 1
      split
      · exact setAt_le_one h.double _ (Nat.le_refl 1) q
      · exact h.double q
    · intro x hx
      have hv := h.scores v (List.mem_of_getElem? h5)
      rcases List.mem_or_eq_of_mem_set hx with hx | rfl
      · exact hsc x hx
      · omega
    · have := h.sticks
      show (s.kyotaku + 1).natAbs ≤ _
      omega
  | @draw p t _ hp e =>
    rw [e.state_eq]
    have hobj : ObjSized (B + 10) (mkStateObj c (drawTile s p t) p) :=
      ⟨by show (s.remaining_tsumo - 1).natAbs ≤ _; omega, h.discards, h.double, h.reaches,
        setAt_le_one h.ippatsu _ (Nat.zero_le 1), hsc, hk, by show c.honba.natAbs ≤ _; omega,
        by show c.rounds_remaining.natAbs ≤ _; omega, fun x hx => Nat.le_trans (hc.dealerships x hx) (by omega)⟩
    refine ⟨by show (s.remaining_tsumo - 1).natAbs ≤ _; omega, h.discards, h.double, h.reaches,
      clearIppatsu_le_one (setAt_le_one h.ippatsu _ (Nat.zero_le 1)), h.menzen, hsc, hk, h.tokens, ?_, ?_⟩
    · intro o ho
      rw [← Option.some.inj ho]
      exact hobj
    · intro x hx
      rcases List.mem_append.1 hx with hx | hx
      · exact hturns x hx
      · rw [List.mem_singleton.1 hx]
        exact hobj
  | @discard p t _ hp e =>
    rw [e.state_eq]
    refine ⟨Nat.le_trans ht (by omega), ?_, h.double, h.reaches, h.ippatsu, h.menzen, hsc, hk,
      tokens_snoc h.tokens (discard_token_le hp e.token_eq), hkept, ?_⟩
    · intro q k
      show (setAt s.sutehai_tensors p (fun k => if k ∈ tile2idx t then 1 else s.sutehai_tensors p k) q k).natAbs ≤ 1
      unfold setAt
      split
      · dsimp only
        split
        · decide
        · exact h.discards p k
      · exact h.discards q k
    · intro x hx
      rcases List.mem_append.1 hx with hx | hx
      · exact hturns x hx
      · simp only [List.mem_cons, List.not_mem_nil, or_false] at hx
        rcases hx with rfl | rfl <;> exact hkept e.o e.obj_eq
  | @call p code _ e =>
    rw [e.state_eq]
    have hts : (if !Code.is_chi code && !Code.is_pon code then s.remaining_tsumo - 1 else s.remaining_tsumo).natAbs ≤ B + 10 := by
      split <;> omega
    have hobj : ObjSized (B + 10) (nakiObj c s code p) :=
      ⟨hts, h.discards, h.double, h.reaches, h.ippatsu, hsc, hk, by show c.honba.natAbs ≤ _; omega,
        by show c.rounds_remaining.natAbs ≤ _; omega, fun x hx => Nat.le_trans (hc.dealerships x hx) (by omega)⟩
    refine ⟨hts, h.discards, h.double, h.reaches, clearIppatsu_le_one h.ippatsu, ?_, hsc, hk,
      tokens_snoc h.tokens (naki_token_le e.token_eq), ?_, ?_⟩
    · intro q
      show (if _ then setAt s.is_menzen p 0 else s.is_menzen) q ≤ 1
      split
      · exact setAt_le_one h.menzen _ (Nat.zero_le 1) q
      · exact h.menzen q
    · intro o ho
      rw [← Option.some.inj ho]
      exact hobj
    · intro x hx
      rcases List.mem_append.1 hx with hx | hx
      · exact forall_obj_set (P := ObjSized (B + 10)) e.turn_eq (obj_mark _ _) hturns x hx
      · unfold chankanTurn at hx
        split at hx
        · rw [List.mem_singleton.1 hx]
          exact hobj
        · simp at hx

theorem sized_init {est : Estimate} {sh : List Int → Except PyErr Int} {g : GameInfo} {a : InitAttr} {c : RoundCfg}
    {s0 : RoundSt} (hi : initRound est sh g a = .ok (c, s0)) (hp : PlainNumbers a) : CfgSized 2000000 c ∧ Sized 2000000 s0 := by
  obtain ⟨d⟩ := initRound_ok hi
  have hs := hp.seed _ d.seed_eq
  have h1 := hs d.curr_round (by simp)
  have h2 := hs d.honba (by simp)
  have h3 := hs d.kyotaku (by simp)
  have h4 : g.n_rounds ≤ 8 := by
    have : g.go &&& 0x8 ≤ 8 := Nat.and_le_right
    unfold GameInfo.n_rounds GameInfo.tonnan
    rw [Nat.shiftRight_eq_div_pow]
    omega
  constructor
  · rw [d.cfg_eq]
    refine ⟨?_, ?_, ?_⟩
    · show ((d.honba : Nat) : Int).natAbs ≤ _; omega
    · show ((g.n_rounds : Int) - d.curr_round).natAbs ≤ _; omega
    · intro x hx
      obtain ⟨i, hi, rfl⟩ := List.mem_map.1 hx
      have := List.mem_range.1 hi
      omega
  · rw [d.state_eq]
    refine ⟨?_, ?_, ?_, ?_, ?_, ?_, ?_, ?_, ?_, ?_, ?_⟩
    · show (remainingTsumo : Int).natAbs ≤ _; decide
    · intro p k; show (0 : Int).natAbs ≤ 1; decide
    · intro p; exact Nat.zero_le _
    · intro p; exact Nat.zero_le _
    · intro p; exact Nat.zero_le _
    · intro p; exact Nat.le_refl 1
    · intro x hx; exact Nat.le_trans (hp.points _ d.scores_eq x hx) (by omega)
    · show ((d.kyotaku : Nat) : Int).natAbs ≤ _; omega
    · intro t ht; simp at ht
    · intro o ho; simp at ho
    · intro o ho; simp at ho

theorem sized_reached {c : RoundCfg} {s0 : RoundSt} {B : Nat} (hc : CfgSized B c) (h0 : Sized B s0) {acts : List Act}
    {s : RoundSt} (hr : Reached c s0 acts s) : Sized (B + 10 * acts.length) s := by
  refine hr.induct (P := fun acts s => Sized (B + 10 * acts.length) s) h0 ?_
  intro acts s act s' _ ih he
  have hc' : CfgSized (B + 10 * acts.length) c :=
    ⟨Nat.le_trans hc.honba (by omega), Nat.le_trans hc.rounds (by omega), fun x hx => Nat.le_trans (hc.dealerships x hx) (by omega)⟩
  have := sized_step hc' ih he
  rw [List.length_append, List.length_singleton]
  exact this

theorem small_reached {c : RoundCfg} {s0 : RoundSt} {B : Nat} (h0 : Small (B + 1) s0) {acts : List Act} {s : RoundSt}
    (hr : Reached c s0 acts s) : Small (B + 1 + 4 * acts.length) s := by
  induction hr with
  | start => exact h0
  | @next acts s s' e act hr ha hs ih =>
    rw [List.length_append, List.length_singleton]
    have := Small.step (B := B + 4 * acts.length) (by rw [show B + 4 * acts.length + 1 = B + 1 + 4 * acts.length by omega]; exact ih) hs
    rw [show B + 1 + 4 * (acts.length + 1) = B + 4 * acts.length + 1 + 4 by omega]
    exact this

theorem Small.mono {B C : Nat} {s : RoundSt} (h : Small B s) (hc : B ≤ C) : Small C s :=
  ⟨fun p => (h.hands p).mono hc, fun p => (h.tensors p).mono hc, fun p => (h.full p).mono hc, h.remaining.mono hc,
    fun p => (h.pov p).mono hc⟩

/-- every number of a sample is small -/
structure RowFits (r : Row) : Prop where
  tokens : ∀ t ∈ r.tokens, t ≤ 2 ^ 24
  x1 : ∀ x ∈ r.x1, ∀ y ∈ x, ∀ z ∈ y, z.natAbs ≤ 2 ^ 24
  x2 : ∀ x ∈ r.x2, ∀ y ∈ x, y.natAbs ≤ 2 ^ 24
  x3 : ∀ x ∈ r.x3, x.natAbs ≤ 2 ^ 24
  mask : ∀ x ∈ r.mask, x.natAbs ≤ 2 ^ 24

theorem stored_ofRows {rows : List Row} (h : ∀ r ∈ rows, RowFits r) : (ofRows rows).stored float32 = ofRows rows := by
  have e : ∀ {α : Type} (f : α → α) (l : List α), (∀ x ∈ l, f x = x) → l.map f = l := by
    intro α f l hl
    conv => rhs; rw [← List.map_id l]
    exact List.map_congr_left hl
  unfold Batch.stored ofRows
  dsimp only
  rw [e _ (rows.map (·.tokens)), e _ (rows.map (·.x1)), e _ (rows.map (·.x2)), e _ (rows.map (·.x3)), e _ (rows.map (·.mask))]
  · intro x hx
    obtain ⟨r, hr, rfl⟩ := List.mem_map.1 hx
    exact e _ _ fun z hz => float32_exact z ((h r hr).mask z hz)
  · intro x hx
    obtain ⟨r, hr, rfl⟩ := List.mem_map.1 hx
    exact e _ _ fun z hz => float32_exact z ((h r hr).x3 z hz)
  · intro x hx
    obtain ⟨r, hr, rfl⟩ := List.mem_map.1 hx
    exact e _ _ fun y hy => e _ _ fun z hz => float32_exact z ((h r hr).x2 y hy z hz)
  · intro x hx
    obtain ⟨r, hr, rfl⟩ := List.mem_map.1 hx
    exact e _ _ fun w hw => e _ _ fun y hy => e _ _ fun z hz => float32_exact z ((h r hr).x1 w hw y hy z hz)
  · intro x hx
    obtain ⟨r, hr, rfl⟩ := List.mem_map.1 hx
    refine e _ _ fun t ht => ?_
    have := (h r hr).tokens t ht
    rw [float32_exact (t : Int) (by omega)]
    rfl

theorem plane_small {v : Variant} {f : Nat → Int} {N : Nat} (hN : 1 ≤ N) (h : ∀ k, (f k).natAbs ≤ N) :
    ∀ y ∈ plane v f, ∀ z ∈ y, z.natAbs ≤ N := by
  have ht : ∀ n, ∀ z ∈ thermo n, z.natAbs ≤ N := by
    intro n z hz
    obtain ⟨j, _, rfl⟩ := List.mem_map.1 hz
    split
    · exact hN
    · exact Nat.zero_le _
  intro y hy z hz
  obtain ⟨k, _, rfl⟩ := List.mem_map.1 hy
  cases v with
  | basic => rw [List.mem_singleton.1 hz]; exact h k
  | conv => exact ht _ z hz
  | ordered => exact ht _ z hz

theorem mem_npRoll {α : Type} {l : List α} {n : Int} {x : α} (h : x ∈ npRoll l n) : x ∈ l := by
  unfold npRoll at h
  rcases List.mem_append.1 h with h | h
  · exact List.mem_of_mem_drop h
  · exact List.mem_of_mem_take h

theorem allows_small {n : Nat} {m : List Int} {P : Nat → Prop} (h : Allows n m P) : ∀ x ∈ m, x.natAbs ≤ 2 ^ 24 := by
  intro x hx
  obtain ⟨k, hk, rfl⟩ := List.getElem_of_mem hx
  by_cases hp : P k
  · have := (h.2.1 k hp).2
    rw [List.getElem?_eq_getElem hk] at this
    rw [Option.some.inj this]
    decide
  · have := h.2.2 k (h.1 ▸ hk) hp
    rw [List.getElem?_eq_getElem hk] at this
    rw [Option.some.inj this]
    decide

theorem rowBase_fits {v : Variant} {s : RoundSt} {o : StateObj} {e p : Nat} {row : Row} {B : Nat} (hB : B ≤ 2 ^ 24) (h1 : 1 ≤ B)
    (hs : Sized B s) (hsm : Small B s) (ho : ObjSized B o) (hm : ∀ x ∈ row.mask, x.natAbs ≤ 2 ^ 24)
    (h : RowBase v s s.encoding_tokens o e p row) : RowFits row := by
  obtain ⟨_, ht, hx1, hx2, hx3, _⟩ := h
  have one : (1 : Nat) ≤ 2 ^ 24 := by decide
  refine ⟨?_, ?_, ?_, ?_, hm⟩
  · intro t htm
    obtain ⟨i, hi, rfl⟩ := List.getElem_of_mem htm
    have := ht.2 i (by rw [← ht.1]; exact hi)
    rw [List.getElem?_eq_getElem hi] at this
    rw [Option.some.inj this]
    split
    · rw [List.getD_eq_getElem?_getD]
      cases hg : s.encoding_tokens[i]? with
      | none => exact Nat.zero_le _
      | some t =>
        have := hs.tokens t (List.mem_of_getElem? hg)
        show t ≤ 2 ^ 24
        omega
    · exact Nat.zero_le _
  · rw [hx1]
    have hd : ∀ q, ∀ y ∈ plane v (o.sutehai_tensors q), ∀ z ∈ y, z.natAbs ≤ 2 ^ 24 := fun q =>
      plane_small one fun k => Nat.le_trans (ho.discards q k) one
    have hh : ∀ y ∈ plane v (o.hand_tensor s), ∀ z ∈ y, z.natAbs ≤ 2 ^ 24 :=
      plane_small one fun k => Nat.le_trans (hsm.tensors o.player k) hB
    have hr : ∀ y ∈ plane v (o.remaining_tiles_pov s), ∀ z ∈ y, z.natAbs ≤ 2 ^ 24 :=
      plane_small one fun k => Nat.le_trans (hsm.pov o.player k) hB
    have hthree : ∀ x ∈ [plane v (o.hand_tensor s), plane v (o.remaining_tiles_pov s), plane v (o.sutehai_tensors o.player)],
        ∀ y ∈ x, ∀ z ∈ y, z.natAbs ≤ 2 ^ 24 := by
      intro x hx
      simp only [List.mem_cons, List.not_mem_nil, or_false] at hx
      rcases hx with rfl | rfl | rfl
      · exact hh
      · exact hr
      · exact hd _
    cases v with
    | basic => exact hthree
    | conv => exact hthree
    | ordered =>
      intro x hx
      rcases List.mem_append.1 hx with hx | hx
      · exact hthree x (by
          simp only [List.mem_cons, List.not_mem_nil, or_false] at hx ⊢
          rcases hx with h | h
          · exact .inl h
          · exact .inr (.inl h))
      · obtain ⟨f, hf, rfl⟩ := List.mem_map.1 hx
        obtain ⟨q, _, rfl⟩ := List.mem_map.1 (mem_npRoll hf)
        exact hd q
  · unfold stateX2 at hx2
    split at hx2
    · injection hx2 with hx2
      rw [← hx2]
      have h4 : ∀ f : Nat → Int, (∀ q, (f q).natAbs ≤ 1) → ∀ y ∈ four f, y.natAbs ≤ 2 ^ 24 := by
        intro f hf y hy
        obtain ⟨q, _, rfl⟩ := List.mem_map.1 hy
        exact Nat.le_trans (hf q) one
      intro x hx
      simp only [List.mem_cons, List.not_mem_nil, or_false] at hx
      rcases hx with rfl | rfl | rfl | rfl | rfl | rfl | rfl
      · exact fun y hy => Nat.le_trans (ho.scores y hy) hB
      · refine h4 _ fun q => ?_
        split <;> decide
      · exact fun y hy => Nat.le_trans (ho.dealerships y hy) hB
      · exact h4 _ fun q => by have := ho.double q; omega
      · exact h4 _ fun q => by have := ho.reaches q; omega
      · exact h4 _ fun q => by have := ho.ippatsu q; omega
      · exact h4 _ fun q => by have := hs.menzen q; show ((s.is_menzen q : Nat) : Int).natAbs ≤ 1; omega
    · cases hx2
  · rw [hx3]
    intro x hx
    simp only [stateX3, List.mem_cons, List.not_mem_nil, or_false] at hx
    rcases hx with rfl | rfl | rfl | rfl
    · exact Nat.le_trans ho.tsumo hB
    · exact Nat.le_trans ho.sticks hB
    · exact Nat.le_trans ho.honba hB
    · exact Nat.le_trans ho.rounds hB

theorem rowsOf_fits {v : Variant} {s : RoundSt} {t : HalfTurn} {rows : List Row} {B : Nat} (hB : B ≤ 2 ^ 24) (h1 : 1 ≤ B)
    (hs : Sized B s) (hsm : Small B s) (ho : ObjSized B t.obj) (hf : FourLists t)
    (h : RowsOf v s s.encoding_tokens t rows) : ∀ r ∈ rows, RowFits r := by
  cases t with
  | during p o e a r n =>
    by_cases hne : a = [] ∧ r = [] ∧ n = []
    · simp only [RowsOf, if_pos hne] at h
      rw [h]; simp
    · simp only [RowsOf, if_neg hne] at h
      obtain ⟨row, rfl, hb, hm, _⟩ := h
      intro r hr
      rw [List.mem_singleton.1 hr]
      exact rowBase_fits hB h1 hs hsm ho (allows_small hm) hb
  | discard p o e t =>
    obtain ⟨row, rfl, hb, hm, _⟩ := h
    intro r hr
    rw [List.mem_singleton.1 hr]
    refine rowBase_fits hB h1 hs hsm ho ?_ hb
    rw [hm]
    intro x hx
    obtain ⟨k, _, rfl⟩ := List.mem_map.1 hx
    have := hsm.tensors o.player k
    omega
  | post q o e a n =>
    have h := h hf.2.1 hf.2.2 hf.1
    intro r hr
    obtain ⟨p, _, hb, hm, _⟩ := h.mem_right hr
    exact rowBase_fits hB h1 hs hsm ho (allows_small hm) hb

/-- **C149.** Nothing is lost when the samples of a round are stored as `float32`: the tensors that `buildTensors` returns are
the same numbers afterwards.  The round is one whose scores, counters and sticks are at most a million, with at most 100000 events. -/
theorem C149_stored_exactly (v : Variant) (est : Estimate) (sh : List Int → Except PyErr Int) (g : GameInfo) (a : InitAttr)
    (evs : List Ev) (s : RoundSt) (d c p : Batch) (hp : PlainNumbers a) (hn : evs.length ≤ 100000)
    (h : processRound est sh g a evs = .ok s) (hb : buildTensors v s s.halfturns s.encoding_tokens = .ok (d, c, p)) :
    d.stored float32 = d ∧ c.stored float32 = c ∧ p.stored float32 = p := by
  obtain ⟨cfg, s0, acts, rest, hi, _, hm, _, hr⟩ := accepted_reached h
  obtain ⟨hcs, h0⟩ := sized_init hi hp
  have hlen : acts.length ≤ evs.length := by
    have := congrArg List.length hm
    simp only [List.length_map, List.length_take] at this
    omega
  have hs := sized_reached hcs h0 hr
  have hsm := small_reached (B := 1999999) ((Small.init hi).mono (by omega)) hr
  have hsm : Small (2000000 + 10 * acts.length) s := hsm.mono (by omega)
  have hB : 2000000 + 10 * acts.length ≤ 2 ^ 24 := by omega
  have hf := fourLists_reached hi hr
  have key : ∀ {f : HalfTurn → Bool} {t : HalfTurn} {rows : List Row}, t ∈ s.halfturns.filter f →
      RowsOf v s s.encoding_tokens t rows → ∀ r ∈ rows, RowFits r := fun ht h =>
    rowsOf_fits hB (by omega) hs hsm (hs.turns _ ((List.mem_filter.1 ht).1)) (hf _ ((List.mem_filter.1 ht).1)) h
  obtain ⟨⟨r1, e1, h1, _⟩, ⟨r2, e2, h2⟩, ⟨g3, e3, h3, _⟩⟩ := head_rows hf hb
  rw [e1, e2, e3]
  refine ⟨stored_ofRows ?_, stored_ofRows ?_, stored_ofRows ?_⟩
  · intro r hr
    obtain ⟨t, ht, hR⟩ := h1.mem_right hr
    exact key ht hR r (by simp)
  · intro r hr
    obtain ⟨t, ht, hR⟩ := h2.mem_right hr
    exact key ht hR r (by simp)
  · intro r hr
    obtain ⟨g, hg, hr⟩ := List.mem_flatten.1 hr
    obtain ⟨t, ht, hR⟩ := h3.mem_right hg
    exact key ht hR r hr

/-- **C149.** Joining batches and storing them can be done in either order, whatever storing does. -/
theorem C149_joined (rnd : Int → Int) (l : List Batch) : (Batch.cat l).stored rnd = Batch.cat (l.map (Batch.stored rnd)) := by
  simp [Batch.stored, Batch.cat, List.map_flatten, Function.comp_def]

/-- **C149.** So the batches prepared from several rounds lose nothing either. -/
theorem C149_prepared (v : Variant) (est : Estimate) (sh : List Int → Except PyErr Int)
    (turns : List (List (RoundSt × List HalfTurn))) (tokens : List (List (List Nat))) (d c p : Batch)
    (hr : ∀ r ∈ zipRounds turns tokens, r.1.2 = r.1.1.halfturns ∧ r.2 = r.1.1.encoding_tokens ∧
      ∃ g a evs, PlainNumbers a ∧ evs.length ≤ 100000 ∧ processRound est sh g a evs = .ok r.1.1)
    (h : prepareBatches v turns tokens = .ok (d, c, p)) :
    d.stored float32 = d ∧ c.stored float32 = c ∧ p.stored float32 = p := by
  unfold prepareBatches at h
  simp only [bind_ok] at h
  obtain ⟨l, hl, h⟩ := h
  have hall : ∀ b ∈ l, b.1.stored float32 = b.1 ∧ b.2.1.stored float32 = b.2.1 ∧ b.2.2.stored float32 = b.2.2 := by
    intro b hb
    obtain ⟨r, hm, he⟩ := (mapM_pairs hl).mem_right hb
    obtain ⟨q1, q2, g, a, evs, q3, q4, q5⟩ := hr r hm
    rw [q1, q2] at he
    exact C149_stored_exactly v est sh g a evs r.1.1 b.1 b.2.1 b.2.2 q3 q4 q5 he
  unfold stackBatches at h
  split at h
  · cases h
  · simp only [Except.ok.injEq, Prod.mk.injEq] at h
    obtain ⟨rfl, rfl, rfl⟩ := h
    refine ⟨?_, ?_, ?_⟩ <;> rw [C149_joined, List.map_map] <;> congr 1 <;> refine List.map_congr_left fun b hb => ?_
    · exact (hall b hb).1
    · exact (hall b hb).2.1
    · exact (hall b hb).2.2

/-- C149 is not vacuous: a round with a sample for each of the first two heads -/
example (v : Variant) : PlainNumbers deal ∧ ∃ s d c p, passRound = .ok s ∧
    buildTensors v s s.halfturns s.encoding_tokens = .ok (d, c, p) ∧ d.y.length = 1 ∧ c.y.length = 1 := by
  refine ⟨⟨?_, ?_⟩, ?_⟩
  · intro ten h
    injection h with h
    rw [← h]
    decide
  · intro seed h
    injection h with h
    rw [← h]
    decide
  · obtain ⟨s, hs, h⟩ := okAnd_ok (passRound_tensors v)
    simp only [Bool.and_eq_true, beq_iff_eq] at h
    obtain ⟨⟨d, c, p⟩, hb, h1⟩ := okAnd_ok h.1
    simp only [Bool.and_eq_true, beq_iff_eq] at h1
    exact ⟨s, d, c, p, hs, hb, by rw [h1.1.1.1]; rfl, by rw [h1.1.2]; rfl⟩

/-- the same round with an impossible number of points -/
def hugeDeal : InitAttr := { deal with ten := .ok [16777217, 250, 250, 250] }

theorem hugeRound_tensors (v : Variant) :
    okAnd (processRound noWin farAway ⟨0⟩ hugeDeal [.draw 0 (.ok 120), .discard 0 (.ok 120), .result false (.ok [])])
      (fun s => okAnd (buildTensors v s s.halfturns s.encoding_tokens)
        (fun b => b.2.1.x2 != (b.2.1.stored float32).x2)) = true := by
  cases v <;> decide +kernel

/-- **C149.** A bound on the numbers of the log is needed: the score 16777217 would be changed. -/
theorem C149_limit (v : Variant) : ∃ est sh g a evs s d c p, evs.length ≤ 100000 ∧ processRound est sh g a evs = .ok s ∧
    buildTensors v s s.halfturns s.encoding_tokens = .ok (d, c, p) ∧ c.stored float32 ≠ c := by
  obtain ⟨s, hs, h⟩ := okAnd_ok (hugeRound_tensors v)
  obtain ⟨⟨d, c, p⟩, hb, h1⟩ := okAnd_ok h
  refine ⟨_, _, _, _, _, s, d, c, p, ?_, hs, hb, ?_⟩
  · decide
  · intro he
    simp only [he, bne_self_eq_false, Bool.false_eq_true] at h1

end MJ
