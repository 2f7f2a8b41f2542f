import Verif.Props.Tokens
import Verif.Props.MeldCanon
/-!
Properties C67-C69 and C81: what the encoders' event embeddings can see.
-/
namespace MJ

theorem lookup_ok {V : Type} {size : Nat} {tbl : Nat → V} {i : Nat} (h : i < size) :
    lookup size tbl i = .ok (tbl i) := by simp [lookup, h]

theorem fields_lt (t : BitVec 64) :
    (tokenFields t).event_type < 8 ∧ (tokenFields t).embedding_type < 8 ∧ (tokenFields t).player_idx < 4 ∧
    (tokenFields t).tile_encoding < 128 ∧ (tokenFields t).tsumogiri < 2 ∧ (tokenFields t).naki_idx < 256 := by
  rw [tokenFields_eq]
  simp only
  omega

section
variable {V : Type} [Zero V] [Add V]

/-- closed form of the basic embedding -/
theorem embedBasic_eq (T : Tables V) (pos : Nat) (t : BitVec 64) (hp : pos < 150)
    (he : (tokenFields t).embedding_type ≤ 4) :
    embedBasic T pos t =
      let f := tokenFields t
      .ok (T.empty + masked (f.event_type == 0) (T.type (f.embedding_type - 1))
        + masked (f.event_type != 1 && f.event_type != 4) (T.tile (min f.tile_encoding 36))
        + masked (f.event_type != 1 && f.event_type != 2 && f.event_type != 3) (T.player f.player_idx)
        + masked (f.event_type != 1 || f.tsumogiri == 0) (T.tsumogiri 0)
        + masked (f.event_type != 0) (T.position pos)
        + masked (f.event_type != 2 || decide (f.naki_idx < 3)) (T.during_naki (min f.naki_idx 70))
        + masked (f.event_type != 3 || decide (f.naki_idx < 2)) (T.post_naki (min f.naki_idx 153))) := by
  have hf := fields_lt t
  simp only [embedBasic]
  rw [lookup_ok (show (tokenFields t).embedding_type - 1 < 4 by omega),
    lookup_ok (show min (tokenFields t).tile_encoding 36 < 37 by omega), lookup_ok hf.2.2.1,
    lookup_ok (show 0 < 1 by omega), lookup_ok (show pos < maxActionLen from hp),
    lookup_ok (show min (tokenFields t).naki_idx (duringTurnActionDim - 1) < duringTurnActionDim by
      simp only [duringTurnActionDim]; omega),
    lookup_ok (show min (tokenFields t).naki_idx (postTurnActionDim - 1) < postTurnActionDim by
      simp only [postTurnActionDim]; omega)]
  rfl

/-- closed form of the ordered embedding -/
theorem embedOrdered_eq (T : Tables V) (v : Int) (pos : Nat) (t : BitVec 64) (hp : pos < 150)
    (he : (tokenFields t).embedding_type ≤ 4) :
    embedOrdered T v pos t =
      let f := tokenFields t
      .ok (T.empty + masked (f.event_type != 0) (T.type (f.embedding_type - 1))
        + masked (f.event_type == 1 || f.event_type == 4) (T.tile (min f.tile_encoding 36))
        + masked (f.event_type == 1 || f.event_type == 2 || f.event_type == 3)
            (T.player (((f.player_idx : Int) - v) % 4).toNat)
        + masked (f.event_type == 1 && f.tsumogiri != 0) (T.tsumogiri f.tsumogiri)
        + masked (f.event_type != 0) (T.position pos)
        + masked (f.event_type == 2 && decide (3 ≤ f.naki_idx)) (T.during_naki (min f.naki_idx 70))
        + masked (f.event_type == 3 && decide (2 ≤ f.naki_idx)) (T.post_naki (min f.naki_idx 153))) := by
  have hf := fields_lt t
  simp only [embedOrdered]
  rw [lookup_ok (show (tokenFields t).embedding_type - 1 < 4 by omega),
    lookup_ok (show min (tokenFields t).tile_encoding 36 < 37 by omega),
    lookup_ok (show (((tokenFields t).player_idx - v) % 4).toNat < 4 by omega),
    lookup_ok hf.2.2.2.2.1, lookup_ok (show pos < maxActionLen from hp),
    lookup_ok (show min (tokenFields t).naki_idx (duringTurnActionDim - 1) < duringTurnActionDim by
      simp only [duringTurnActionDim]; omega),
    lookup_ok (show min (tokenFields t).naki_idx (postTurnActionDim - 1) < postTurnActionDim by
      simp only [postTurnActionDim]; omega)]
  rfl

theorem embedBasic_err (T : Tables V) (pos : Nat) (t : BitVec 64)
    (he : ¬ (tokenFields t).embedding_type ≤ 4) : embedBasic T pos t = .error .index := by
  simp only [embedBasic, lookup]
  rw [if_neg (show ¬ (tokenFields t).embedding_type - 1 < 4 by omega)]
  rfl

theorem embedOrdered_err (T : Tables V) (v : Int) (pos : Nat) (t : BitVec 64)
    (he : ¬ (tokenFields t).embedding_type ≤ 4) : embedOrdered T v pos t = .error .index := by
  simp only [embedOrdered, lookup]
  rw [if_neg (show ¬ (tokenFields t).embedding_type - 1 < 4 by omega)]
  rfl

end

/-! ## C67 -/

/-- two tokens that agree in everything except the player -/
def differOnlyInPlayer (t t' : BitVec 64) : Prop :=
  (tokenFields t).event_type = (tokenFields t').event_type ∧
  (tokenFields t).embedding_type = (tokenFields t').embedding_type ∧
  (tokenFields t).tile_encoding = (tokenFields t').tile_encoding ∧
  (tokenFields t).tsumogiri = (tokenFields t').tsumogiri ∧
  (tokenFields t).naki_idx = (tokenFields t').naki_idx ∧
  (tokenFields t).player_idx ≠ (tokenFields t').player_idx

instance (t t' : BitVec 64) : Decidable (differOnlyInPlayer t t') := by
  unfold differOnlyInPlayer; infer_instance

/-- The basic encoder does not see who acted: whatever the tables, two discards, melds or
riichis that differ only in the player have the same embedding.  (The property fails.) -/
theorem C67_basic_sees_player_violated {V : Type} [Zero V] [Add V] (T : Tables V) (pos : Nat)
    (hp : pos < 150) (t t' : BitVec 64) (h : differOnlyInPlayer t t')
    (ht : (tokenFields t).event_type = 1 ∨ (tokenFields t).event_type = 2 ∨ (tokenFields t).event_type = 3) :
    embedBasic T pos t = embedBasic T pos t' := by
  obtain ⟨h1, h2, h3, h4, h5, _⟩ := h
  by_cases he : (tokenFields t).embedding_type ≤ 4
  · have he' : (tokenFields t').embedding_type ≤ 4 := h2 ▸ he
    rw [embedBasic_eq T pos t hp he, embedBasic_eq T pos t' hp he']
    simp only [← h1, ← h2, ← h3, ← h4, ← h5]
    have hm : ((tokenFields t).event_type != 1 && (tokenFields t).event_type != 2
        && (tokenFields t).event_type != 3) = false := by
      rcases ht with h | h | h <;> rw [h] <;> rfl
    rw [hm]
    simp only [masked, Bool.false_eq_true, if_false]
  · rw [embedBasic_err T pos t he, embedBasic_err T pos t' (h2 ▸ he)]

/-- What is left of the property: the acting player is visible exactly for the token
classes that have no acting player. -/
theorem C67_basic_sees_player_partial (pos : Nat) (hp : pos < 150) (t t' : BitVec 64)
    (h : differOnlyInPlayer t t') (he : (tokenFields t).embedding_type ≤ 4) :
    (∃ T : Tables Int, embedBasic T pos t ≠ embedBasic T pos t') ↔
      ¬ ((tokenFields t).event_type = 1 ∨ (tokenFields t).event_type = 2 ∨ (tokenFields t).event_type = 3) := by
  constructor
  · rintro ⟨T, hT⟩ ht
    exact hT (C67_basic_sees_player_violated T pos hp t t' h ht)
  · intro ht
    obtain ⟨h1, h2, h3, h4, h5, h6⟩ := h
    refine ⟨{ empty := 0, type := fun _ => 0, tile := fun _ => 0, tsumogiri := fun _ => 0,
              during_naki := fun _ => 0, post_naki := fun _ => 0, position := fun _ => 0,
              player := fun p => (p : Int) }, ?_⟩
    have he' : (tokenFields t').embedding_type ≤ 4 := h2 ▸ he
    rw [embedBasic_eq _ pos t hp he, embedBasic_eq _ pos t' hp he']
    have hm : ((tokenFields t).event_type != 1 && (tokenFields t).event_type != 2
        && (tokenFields t).event_type != 3) = true := by
      simp only [not_or] at ht
      simp [ht]
    simp only [← h1, hm, masked, if_true, ite_self, Int.zero_add, Int.add_zero, ne_eq, Except.ok.injEq]
    omega

example : differOnlyInPlayer 0x2800#64 0x2900#64 ∧ (tokenFields 0x2800#64).event_type = 1 := by decide

/-! ## C68 -/

/-- The ordered encoder sees players only relative to the viewing player. -/
theorem C68_ordered_relative {V : Type} [Zero V] [Add V] (T : Tables V) (pos : Nat) (hp : pos < 150)
    (v v' : Int) (t t' : BitVec 64)
    (h1 : (tokenFields t).event_type = (tokenFields t').event_type)
    (h2 : (tokenFields t).embedding_type = (tokenFields t').embedding_type)
    (h3 : (tokenFields t).tile_encoding = (tokenFields t').tile_encoding)
    (h4 : (tokenFields t).tsumogiri = (tokenFields t').tsumogiri)
    (h5 : (tokenFields t).naki_idx = (tokenFields t').naki_idx)
    (hrel : ((tokenFields t).player_idx - v) % 4 = ((tokenFields t').player_idx - v') % 4) :
    embedOrdered T v pos t = embedOrdered T v' pos t' := by
  by_cases he : (tokenFields t).embedding_type ≤ 4
  · rw [embedOrdered_eq T v pos t hp he, embedOrdered_eq T v' pos t' hp (h2 ▸ he)]
    simp only [← h1, ← h2, ← h3, ← h4, ← h5, hrel]
  · rw [embedOrdered_err T v pos t he, embedOrdered_err T v' pos t' (h2 ▸ he)]

/-- Shifting the viewing player and the actor by the same amount changes nothing: a
discard of the actor `p` seen by `v` looks like the same discard of `p + d` seen by `v + d`. -/
theorem C68_ordered_shift {V : Type} [Zero V] [Add V] (T : Tables V) (pos : Nat) (hp : pos < 150)
    (v d : Nat) (p tile : Nat) (ts : Bool) (hpl : p < 4) (ht : tile < 37)
    (t t' : Nat) (h : discard2idx p tile ts = .ok t) (h' : discard2idx ((p + d) % 4) tile ts = .ok t') :
    embedOrdered T v pos (BitVec.ofNat 64 t) = embedOrdered T ((v + d : Nat) : Int) pos (BitVec.ofNat 64 t') := by
  have hd : (p + d) % 4 < 4 := by omega
  have hts := Bool.toNat_le ts
  rw [discard_token p tile ts hpl ht] at h
  rw [discard_token _ tile ts hd ht] at h'
  simp only [Except.ok.injEq] at h h'
  subst h h'
  apply C68_ordered_relative T pos hp
  all_goals
    rw [tokenFields_parts 1 2 p _ (by omega) (by omega) hpl (by omega),
      tokenFields_parts 1 2 _ _ (by omega) (by omega) hd (by omega)]
  simp only
  omega

example : discard2idx 1 5 true = .ok 0x2985 ∧ discard2idx ((1 + 3) % 4) 5 true = .ok 0x2885 := by decide

/-! ## C69 -/

/-- Padding has the zero embedding (`empty_embedding` is a constant zero tensor). -/
theorem C69_padding_zero {V : Type} [Zero V] [Add V] (h0 : (0 : V) + 0 = 0) (T : Tables V)
    (hT : T.empty = 0) (v : Int) (pos : Nat) (hp : pos < 150) :
    embedOrdered T v pos (BitVec.ofNat 64 padId) = .ok 0 := by
  have hf : tokenFields (BitVec.ofNat 64 padId) = ⟨0, 0, 0, 0, 0, 0⟩ := by decide
  rw [embedOrdered_eq T v pos _ hp (by rw [hf]; decide), hf, hT]
  simp [masked, h0]

/-- The full statement about lookups fails for arbitrary integers: a type field above 4
indexes past the end of the type table. -/
theorem C69_lookups_violated :
    ¬ ∀ (T : Tables Int) (v : Int) (pos : Nat) (t : BitVec 64), pos < 150 → ∃ x, embedOrdered T v pos t = .ok x := by
  intro h
  obtain ⟨x, hx⟩ := h ⟨0, fun _ => 0, fun _ => 0, fun _ => 0, fun _ => 0, fun _ => 0, fun _ => 0, fun _ => 0⟩
    0 0 0x1400#64 (by decide)
  rw [embedOrdered_err _ _ _ _ (by decide)] at hx
  simp at hx

/-- All lookups are in range exactly when the type field is at most 4; this includes every
token produced from a log. -/
theorem C69_lookups_partial {V : Type} [Zero V] [Add V] (T : Tables V) (v : Int) (pos : Nat) (hp : pos < 150) :
    (∀ t : BitVec 64, (∃ x, embedOrdered T v pos t = .ok x) ↔ (tokenFields t).embedding_type ≤ 4) ∧
    (∀ (e : TokenEvent) (n : Nat), e.Valid → e.token = .ok n →
      ∃ x, embedOrdered T v pos (BitVec.ofNat 64 n) = .ok x) := by
  have key : ∀ t : BitVec 64, (∃ x, embedOrdered T v pos t = .ok x) ↔ (tokenFields t).embedding_type ≤ 4 := by
    intro t
    constructor
    · rintro ⟨x, hx⟩
      apply Classical.byContradiction
      intro he
      rw [embedOrdered_err T v pos t he] at hx
      simp at hx
    · intro he
      exact ⟨_, embedOrdered_eq T v pos t hp he⟩
  refine ⟨key, ?_⟩
  intro e n hv hn
  rw [key]
  have h := C15_type_field_partial e hv n hn
  simp only [readToken] at h
  by_cases hc : e.cls = 0
  · rw [h.1 hc]; decide
  · rw [h.2 hc]
    cases e <;> simp [TokenEvent.eventType, EventTypes.DISCARD, EventTypes.NAKI, EventTypes.RIICHI, EventTypes.NEW_DORA]

example : (tokenFields 0x2985#64).embedding_type ≤ 4 ∧ (tokenFields 0x1400#64).embedding_type = 5 := by decide

/-! ## C81 -/

/-- events of real tiles -/
def TokenEvent.Real (e : TokenEvent) : Prop := e.Valid ∧ ∀ w c, e = .naki w c → Spec.WellFormed c

theorem token_form_real (e : TokenEvent) (hr : e.Real) (t : Nat) (h : e.token = .ok t) :
    ∃ s y p n, t = s * 8192 + y * 1024 + p * 256 + n ∧ p < 4 ∧ n < 256 ∧
      ((s = 1 ∧ y = 2 ∧ n % 128 < 37) ∨ (s = 2 ∧ y = 2 ∧ 3 ≤ n ∧ n ≤ 70) ∨ (s = 3 ∧ y = 2 ∧ 2 ≤ n ∧ n ≤ 153) ∨
       (s = 2 ∧ y = 3 ∧ n = 2) ∨ (s = 4 ∧ y = 4 ∧ p = 0 ∧ n < 37)) := by
  obtain ⟨hv, hw⟩ := hr
  cases e with
  | discard w k b =>
    have hk : k < 37 := by
      simp only [TokenEvent.token, discard2idx] at h
      split at h
      · assumption
      · simp at h
    have hts := Bool.toNat_le b
    simp only [TokenEvent.token, discard_token w k b hv hk, Except.ok.injEq] at h
    exact ⟨1, 2, w, b.toNat * 128 + k, h.symm, hv, by omega, by omega⟩
  | naki w c =>
    have wf := hw w c rfl
    have hw : w < 4 := by
      rcases Nat.lt_or_ge w 4 with hw | hw
      · exact hw
      · simp [TokenEvent.token, (C13_naki_rejects w c).1 hw] at h
    cases hm : Spec.meldType c with
    | none => simp [TokenEvent.token, (C13_naki_rejects w c).2 hw hm] at h
    | some ty =>
      obtain ⟨n, hn, h1, h2⟩ := naki_token w c hw ty hm
      have r1 := C09_during_idx_range c wf
      have r2 := C10_post_idx_range c wf
      rw [hm] at r1 r2
      by_cases hd : ty = .kakan ∨ ty = .ankan
      · obtain ⟨a1, a2, a3⟩ := h1 hd
        simp only [TokenEvent.token, a3, Except.ok.injEq] at h
        have : n ≤ 70 := by
          rcases hd with rfl | rfl <;> obtain ⟨i, b1, b2⟩ := r1 <;> rw [a2] at b1 <;>
            simp only [Except.ok.injEq] at b1 <;> omega
        exact ⟨2, 2, w, n, h.symm, hw, hn, by omega⟩
      · have hp : ty = .chi ∨ ty = .pon ∨ ty = .minkan := by
          cases ty <;> simp_all
        obtain ⟨a1, a2, a3⟩ := h2 hp
        simp only [TokenEvent.token, a3, Except.ok.injEq] at h
        have : n ≤ 153 := by
          rcases hp with rfl | rfl | rfl <;> obtain ⟨i, b1, b2⟩ := r2 <;> rw [a2] at b1 <;>
            simp only [Except.ok.injEq] at b1 <;> omega
        exact ⟨3, 2, w, n, h.symm, hw, hn, by omega⟩
  | reach w =>
    have hw : w < 4 := by
      rcases Nat.lt_or_ge w 4 with hw | hw
      · exact hw
      · simp [TokenEvent.token, reach2idx, Nat.not_lt.2 hw] at h
    simp only [TokenEvent.token, reach_token w hw, Except.ok.injEq] at h
    exact ⟨2, 3, w, 2, h.symm, hw, by omega, by omega⟩
  | dora k =>
    have hk : k < 37 := by
      rcases Nat.lt_or_ge k 37 with hk | hk
      · exact hk
      · simp [TokenEvent.token, new_dora2idx, Nat.not_lt.2 hk] at h
    simp only [TokenEvent.token, dora_token k hk, Except.ok.injEq] at h
    exact ⟨4, 4, 0, k, h.symm, by omega, by omega, by omega⟩

/-- tables that write each part of an event in its own digit -/
def digitTables : Tables Int :=
  { empty := 0, position := fun _ => 0
    type := fun i => i * 1000000000
    tile := fun i => (i + 1) * 10000000
    tsumogiri := fun i => i * 5000000
    player := fun i => i * 1000000
    during_naki := fun i => i * 1000
    post_naki := fun i => i }

/-- The ordered encoder loses nothing: there are tables for which, at every position and
for every viewing player, events with different tokens have different embeddings. -/
theorem C81_ordered_distinguishes :
    ∃ T : Tables Int, ∀ (v : Int) (pos : Nat), pos < 150 →
      ∀ (e e' : TokenEvent), e.Real → e'.Real → ∀ n n', e.token = .ok n → e'.token = .ok n' →
      embedOrdered T v pos (BitVec.ofNat 64 n) = embedOrdered T v pos (BitVec.ofNat 64 n') → n = n' := by
  refine ⟨digitTables, ?_⟩
  intro v pos hp e e' hr hr' t t' ht ht' heq
  obtain ⟨s, y, p, n, rfl, hp1, hn, hf⟩ := token_form_real e hr t ht
  obtain ⟨s', y', p', n', rfl, hp1', hn', hf'⟩ := token_form_real e' hr' t' ht'
  have t1 := tokenFields_parts s y p n (by omega) (by omega) hp1 hn
  have t2 := tokenFields_parts s' y' p' n' (by omega) (by omega) hp1' hn'
  rw [embedOrdered_eq _ v pos _ hp (by rw [t1]; simp only; omega),
    embedOrdered_eq _ v pos _ hp (by rw [t2]; simp only; omega), t1, t2] at heq
  clear t1 t2 ht ht' hr hr'
  have q : ∀ a : Nat, a < 4 → ∃ r : Nat, (((a : Int) - v) % 4).toNat = r ∧ r < 4 := by
    intro a _; exact ⟨_, rfl, by omega⟩
  have hinj : (((p : Int) - v) % 4).toNat = (((p' : Int) - v) % 4).toNat → p = p' := by omega
  obtain ⟨r, hr, hr4⟩ := q p hp1
  obtain ⟨r', hr', hr4'⟩ := q p' hp1'
  rw [hr, hr'] at hinj
  simp only [digitTables, Except.ok.injEq, hr, hr'] at heq
  clear hr hr' q
  have m1 : n / 128 < 2 := by omega
  have m2 : n' / 128 < 2 := by omega
  rcases hf with ⟨rfl, rfl, hb⟩ | ⟨rfl, rfl, hb, hc⟩ | ⟨rfl, rfl, hb, hc⟩ | ⟨rfl, rfl, rfl⟩ | ⟨rfl, rfl, rfl, hb⟩ <;>
    rcases hf' with ⟨rfl, rfl, hb'⟩ | ⟨rfl, rfl, hb', hc'⟩ | ⟨rfl, rfl, hb', hc'⟩ | ⟨rfl, rfl, rfl⟩ | ⟨rfl, rfl, rfl, hb'⟩ <;>
    simp [masked, *] at heq <;> omega

example : (TokenEvent.naki 1 0x1C2F).Real ∧ (TokenEvent.naki 1 0x1C2F).token = .ok 0x6945 := by
  refine ⟨⟨trivial, ?_⟩, by decide⟩
  intro w c h
  simp only [TokenEvent.naki.injEq] at h
  rw [← h.2]
  refine ⟨by decide, ?_⟩
  rw [show Spec.meldType 0x1C2F = some .chi by decide]
  decide

end MJ
