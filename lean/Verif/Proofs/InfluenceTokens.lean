import Verif.Proofs.InfluenceState
/-!
Embeddings that are zero but at the first position, and the effect of one entry of a table on the embeddings.
-/
namespace MJ
open scoped BigOperators
open Spec Net Code

theorem masked_add {V : Type} [AddMonoid V] (m : Bool) (x y : V) : masked m (x + y) = masked m x + masked m y := by
  cases m <;> simp [masked]

theorem masked_map {V W : Type} [Zero V] [Zero W] (g : V → W) (h0 : g 0 = 0) (m : Bool) (x : V) : masked m (g x) = g (masked m x) := by
  cases m <;> simp [masked, h0]

/-- sum of tables, image of tables -/
def Tables.add {V : Type} [Add V] (T S : Tables V) : Tables V :=
  ⟨T.empty + S.empty, fun i => T.type i + S.type i, fun i => T.tile i + S.tile i, fun i => T.tsumogiri i + S.tsumogiri i,
    fun i => T.during_naki i + S.during_naki i, fun i => T.post_naki i + S.post_naki i, fun i => T.position i + S.position i,
    fun i => T.player i + S.player i⟩
@[inherit_doc Tables.add] def Tables.image {V W : Type} (g : V → W) (T : Tables V) : Tables W :=
  ⟨g T.empty, fun i => g (T.type i), fun i => g (T.tile i), fun i => g (T.tsumogiri i),
    fun i => g (T.during_naki i), fun i => g (T.post_naki i), fun i => g (T.position i), fun i => g (T.player i)⟩

/-- a token with an existing type -/
def TypeOk (t : BitVec 64) : Prop := (tokenFields t).embedding_type ≤ 4

theorem embed_total {V : Type} [Zero V] [Add V] (v : Variant) (T : Tables V) (pl : Int) (pos : Nat) (hp : pos < 150) (t : BitVec 64)
    (ht : TypeOk t) : ∃ e, embed v T pl pos t = .ok e := by
  cases v
  · exact ⟨_, embedBasic_eq T pos t hp ht⟩
  · exact ⟨_, embedBasic_eq T pos t hp ht⟩
  · exact ⟨_, embedOrdered_eq T pl pos t hp ht⟩

theorem embed_typeOk {V : Type} [Zero V] [Add V] {v : Variant} {T : Tables V} {pl : Int} {pos : Nat} {t : BitVec 64} {e : V}
    (h : embed v T pl pos t = .ok e) : TypeOk t := by
  by_cases ht : TypeOk t
  · exact ht
  · cases v
    · rw [show embed .basic T pl pos t = embedBasic T pos t from rfl, embedBasic_err T pos t ht] at h; cases h
    · rw [show embed .conv T pl pos t = embedBasic T pos t from rfl, embedBasic_err T pos t ht] at h; cases h
    · rw [show embed .ordered T pl pos t = embedOrdered T pl pos t from rfl, embedOrdered_err T pl pos t ht] at h; cases h

theorem embed_add {V : Type} [AddCommMonoid V] (v : Variant) (T S : Tables V) (pl : Int) (pos : Nat) (hp : pos < 150) (t : BitVec 64)
    {e e' : V} (h : embed v T pl pos t = .ok e) (h' : embed v S pl pos t = .ok e') : embed v (T.add S) pl pos t = .ok (e + e') := by
  have ht := embed_typeOk h
  cases v
  all_goals
    simp only [embed] at h h' ⊢
    first
      | rw [embedBasic_eq _ pos t hp ht] at h h' ⊢
      | rw [embedOrdered_eq _ pl pos t hp ht] at h h' ⊢
    simp only [Except.ok.injEq] at h h' ⊢
    rw [← h, ← h']
    simp only [Tables.add, masked_add]
    abel

theorem embed_image {V W : Type} [AddCommMonoid V] [AddCommMonoid W] (g : V →+ W) (v : Variant) (T : Tables V) (pl : Int) (pos : Nat)
    (hp : pos < 150) (t : BitVec 64) {e : V} (h : embed v T pl pos t = .ok e) : embed v (T.image g) pl pos t = .ok (g e) := by
  have ht := embed_typeOk h
  cases v
  all_goals
    simp only [embed] at h ⊢
    first
      | rw [embedBasic_eq _ pos t hp ht] at h ⊢
      | rw [embedOrdered_eq _ pl pos t hp ht] at h ⊢
    simp only [Except.ok.injEq] at h ⊢
    rw [← h]
    simp only [Tables.image, map_add, masked_map g (map_zero g)]

theorem masked_nonneg {m : Bool} {x : Int} (h : 0 ≤ x) : 0 ≤ masked m x := by cases m <;> simp [masked, h]

theorem embed_nonneg (v : Variant) (T : Tables Int) (pl : Int) (pos : Nat) (hp : pos < 150) (t : BitVec 64)
    (h0 : 0 ≤ T.empty) (hT : ∀ m j, 0 ≤ T.row m j) {e : Int} (h : embed v T pl pos t = .ok e) : 0 ≤ e := by
  have ht := embed_typeOk h
  have h1 : ∀ j, 0 ≤ T.type j := hT .type
  have h2 : ∀ j, 0 ≤ T.tile j := hT .tile
  have h3 : ∀ j, 0 ≤ T.tsumogiri j := hT .tsumogiri
  have h4 : ∀ j, 0 ≤ T.during_naki j := hT .during
  have h5 : ∀ j, 0 ≤ T.post_naki j := hT .post
  have h6 : ∀ j, 0 ≤ T.position j := hT .position
  have h7 : ∀ j, 0 ≤ T.player j := hT .player
  cases v
  all_goals
    simp only [embed] at h
    first
      | rw [embedBasic_eq _ pos t hp ht] at h
      | rw [embedOrdered_eq _ pl pos t hp ht] at h
    simp only [Except.ok.injEq] at h
    rw [← h]
    refine add_nonneg (add_nonneg (add_nonneg (add_nonneg (add_nonneg (add_nonneg (add_nonneg ?_ ?_) ?_) ?_) ?_) ?_) ?_) ?_ <;>
      first | exact h0 | exact masked_nonneg (by first | exact h1 _ | exact h2 _ | exact h3 _ | exact h4 _ | exact h5 _ | exact h6 _ | exact h7 _)

/-! ### embeddings that are zero but at the first position -/

/-- the fixed tables, and otherwise what makes the token of an event at position zero a given vector and padding zero -/
noncomputable def lumpTables (v : Variant) (x : Fin embdSize → ℝ) : Tables (Fin embdSize → ℝ) :=
  let pos : ℕ → Fin embdSize → ℝ := fun i j => positionTable embdSize i j
  let pl : ℕ → Fin embdSize → ℝ := fun i j => playerTable embdSize i j
  match v with
  | .ordered => ⟨0, fun i => if i = 3 then x - pos 0 else 0, fun _ => 0, fun _ => 0, fun _ => 0, fun _ => 0, pos, pl⟩
  | _ => ⟨0, fun i => if i = 0 then - pl 0 else 0, fun _ => 0, fun _ => 0, fun i => if i = 1 then x - pl 0 - pos 0 else 0,
      fun _ => 0, pos, pl⟩

/-- a dora indicator of kind 1, then padding -/
def lumpTokens (t : Fin 150) : BitVec 64 := if t = 0 then 36865#64 else 0#64

theorem lumpTables_fixed (v : Variant) (x : Fin embdSize → ℝ) : FixedTables (lumpTables v x) := by
  cases v <;> exact ⟨rfl, fun _ _ => rfl, fun _ _ => rfl⟩

theorem lumpTokens_logged (t : Fin 150) : ∃ n, LogToken n ∧ lumpTokens t = BitVec.ofNat 64 n := by
  unfold lumpTokens
  split
  · exact ⟨36865, .inr ⟨.dora 1, show 1 < 34 by decide, by decide⟩, rfl⟩
  · exact ⟨0, .inl rfl, rfl⟩

theorem lump_embed (v : Variant) (x : Fin embdSize → ℝ) (t : Fin 150) :
    embed v (lumpTables v x) 0 t.val (lumpTokens t) = .ok (lump x t) := by
  have f1 : tokenFields 36865#64 = ⟨4, 4, 0, 1, 0, 1⟩ := by decide
  have f0 : tokenFields 0#64 = ⟨0, 0, 0, 0, 0, 0⟩ := by decide
  by_cases ht : t = 0
  · subst ht
    have hl : lump x 0 = x := by funext i; simp [lump]
    have hk : lumpTokens 0 = 36865#64 := rfl
    rw [hl, hk]
    cases v <;> simp only [embed]
    · rw [embedBasic_eq _ _ _ (by decide) (by rw [f1]), f1]
      simp [lumpTables, masked]
    · rw [embedBasic_eq _ _ _ (by decide) (by rw [f1]), f1]
      simp [lumpTables, masked]
    · rw [embedOrdered_eq _ _ _ _ (by decide) (by rw [f1]), f1]
      simp [lumpTables, masked]
  · have hl : lump x t = 0 := by funext i; simp [lump, ht]
    have hk : lumpTokens t = 0#64 := by simp [lumpTokens, ht]
    rw [hl, hk]
    cases v <;> simp only [embed]
    · rw [embedBasic_eq _ _ _ t.isLt (by rw [f0]; decide), f0]
      simp [lumpTables, masked]
    · rw [embedBasic_eq _ _ _ t.isLt (by rw [f0]; decide), f0]
      simp [lumpTables, masked]
    · rw [embedOrdered_eq _ _ _ _ t.isLt (by rw [f0]; decide), f0]
      simp [lumpTables, masked]

/-! ### one entry of a table -/

/-- an integer in one coordinate -/
def atCoord (j : Fin embdSize) : Int →+ (Fin embdSize → ℝ) where
  toFun c := single j (c : ℝ)
  map_zero' := by simp
  map_add' a b := by rw [single_add]; push_cast; rfl

theorem setRow_add (f : ℕ → Fin embdSize → ℝ) (i : ℕ) (j : Fin embdSize) (h : f i j = 0) :
    setRow f i j 1 = fun k => f k + atCoord j (if k = i then 1 else 0) := by
  funext k l
  unfold setRow
  by_cases hk : k = i
  · subst hk
    by_cases hl : l = j
    · subst hl
      simp [atCoord, h]
    · simp [atCoord, single_ne hl, hl]
  · simp [hk]

theorem set_eq_add (T : Tables (Fin embdSize → ℝ)) (name : TableName) (i : ℕ) (j : Fin embdSize) (h : T.row name i j = 0) :
    T.set 1 i j name = T.add ((unitTables name i).image (atCoord j)) := by
  cases name
  all_goals
    simp only [Tables.set, Tables.add, Tables.image, unitTables]
    simp
    exact setRow_add _ _ _ h

/-- the tokens for a row: at the first position that of an event, then padding -/
theorem row_tokens (v : Variant) (name : TableName) (i : ℕ) (hi : i < tableSize v name) (hd : i ∉ deadRows v name)
    (hp : name ≠ .position) :
    ∃ n, LogToken n ∧ embed v (unitTables name i) 0 0 (BitVec.ofNat 64 n) = .ok 1 := by
  have hall : name ∈ TableName.all := by cases name <;> decide
  have hc := rows_checked v name hall i hi hd
  have fin : ∀ n, embedVal v (unitTables name i) 0 n = 1 → embed v (unitTables name i) 0 0 (BitVec.ofNat 64 n) = .ok 1 := by
    intro n h
    unfold embedVal at h
    split at h
    · rename_i x hx; rw [hx, h]
    · cases h
  unfold rowCheck at hc
  rw [if_neg hp] at hc
  dsimp only at hc
  split at hc
  · exact ⟨padId, .inl rfl, fin padId (by simpa using hc)⟩
  · rename_i e _
    simp only [Bool.and_eq_true] at hc
    obtain ⟨h1, h2⟩ := hc
    split at h2
    · rename_i n hn
      exact ⟨n, .inr ⟨e, loggedB_ok h1, hn⟩, fin n (by simpa using h2)⟩
    · cases h2

/-- the fixed tables and zeros -/
noncomputable def plainTables : Tables (Fin embdSize → ℝ) :=
  ⟨0, fun _ => 0, fun _ => 0, fun _ => 0, fun _ => 0, fun _ => 0, fun i j => positionTable embdSize i j, fun i j => playerTable embdSize i j⟩

/-- one entry of a row that is used changes the sum of the embeddings -/
theorem table_test (v : Variant) (name : TableName) (i : ℕ) (j : Fin embdSize) (hi : i < tableSize v name) (hd : i ∉ deadRows v name)
    (hp : name ≠ .position) (hq : name ≠ .player) :
    ∃ (tok : Fin 150 → BitVec 64) (E E' : Fin 150 → Fin embdSize → ℝ), (∀ t, ∃ n, LogToken n ∧ tok t = BitVec.ofNat 64 n) ∧
      (∀ t, embed v plainTables 0 t.val (tok t) = .ok (E t)) ∧
      (∀ t, embed v (plainTables.set 1 i j name) 0 t.val (tok t) = .ok (E' t)) ∧ ∑ t, E t j ≠ ∑ t, E' t j := by
  obtain ⟨n, hn, h1⟩ := row_tokens v name i hi hd hp
  have hok : ∀ t : Fin 150, TypeOk (if t = 0 then BitVec.ofNat 64 n else 0#64) := by
    intro t
    split
    · exact embed_typeOk h1
    · unfold TypeOk; decide
  have hU : ∀ t : Fin 150, ∃ c : Int, embed v (unitTables name i) 0 t.val (if t = 0 then BitVec.ofNat 64 n else 0#64) = .ok c :=
    fun t => embed_total _ _ _ _ t.isLt _ (hok t)
  have hE : ∀ t : Fin 150, ∃ c, embed v plainTables 0 t.val (if t = 0 then BitVec.ofNat 64 n else 0#64) = .ok c :=
    fun t => embed_total _ _ _ _ t.isLt _ (hok t)
  choose c hc using hU
  choose E hE using hE
  have hrow : plainTables.row name i j = 0 := by
    cases name <;> first | rfl | exact absurd rfl hp | exact absurd rfl hq
  refine ⟨fun t => if t = 0 then BitVec.ofNat 64 n else 0#64, E, fun t => E t + atCoord j (c t), ?_, hE, ?_, ?_⟩
  · intro t
    dsimp only
    split
    · exact ⟨n, hn, rfl⟩
    · exact ⟨0, .inl rfl, rfl⟩
  · intro t
    rw [set_eq_add _ _ _ _ hrow]
    exact embed_add _ _ _ _ _ t.isLt _ (hE t) (embed_image _ _ _ _ _ t.isLt _ (hc t))
  · have h0 : c 0 = 1 := by
      have := hc 0
      rw [if_pos rfl] at this
      have h1' : embed v (unitTables name i) 0 (0 : Fin 150).val (BitVec.ofNat 64 n) = .ok 1 := h1
      rw [h1'] at this
      exact (Except.ok.inj this).symm
    have hnn : ∀ t, 0 ≤ c t := fun t => embed_nonneg v _ 0 _ t.isLt _ (le_refl _) (fun m k => by
      rw [unit_row]; split <;> decide) (hc t)
    have e : ∀ t, (E t + atCoord j (c t)) j = E t j + (c t : ℝ) := by
      intro t
      simp [atCoord]
    simp only [e]
    rw [Finset.sum_add_distrib]
    have : (0 : ℝ) < ∑ t, (c t : ℝ) := by
      refine Finset.sum_pos' (fun t _ => by exact_mod_cast hnn t) ⟨0, Finset.mem_univ _, by rw [h0]; norm_num⟩
    intro h
    linarith

end MJ
