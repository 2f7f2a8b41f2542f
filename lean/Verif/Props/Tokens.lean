import Verif.Proofs.TokenFields
import Verif.Proofs.NakiClean
import Verif.Spec.Meld
/-!
Properties C12-C15: event tokens and the encoder's bit fields.
-/
namespace MJ
open Spec

/-- what the encoders read from a token produced by the log reader -/
def readToken (t : Nat) : TokenFields := tokenFields (BitVec.ofNat 64 t)

theorem discard_token (who tile : Nat) (ts : Bool) (hw : who < 4) (ht : tile < 37) :
    discard2idx who tile ts = .ok (1 * 8192 + 2 * 1024 + who * 256 + (ts.toNat * 128 + tile)) := by
  have hts := Bool.toNat_le ts
  have e : ts.toNat <<< 7 ||| tile = ts.toNat * 128 + tile := by
    have h7 : tile < 2 ^ 7 := by omega
    rw [Nat.or_comm, or_shl 7 ts.toNat tile h7]
  have := or_parts 1 2 who (ts.toNat * 128 + tile) (by omega) hw (by omega)
  rw [discard2idx, if_pos ht, Nat.or_assoc, e]
  exact congrArg Except.ok this

theorem reach_token (who : Nat) (hw : who < 4) :
    reach2idx who = .ok (2 * 8192 + 3 * 1024 + who * 256 + 2) := by
  have := or_parts 2 3 who 2 (by omega) hw (by omega)
  simp only [reach2idx, hw, if_true, EventStateTypes.DURING, EventTypes.RIICHI, this]
  rw [if_pos (by show _ ≤ 131072; omega)]

theorem dora_token (tile : Nat) (ht : tile < 37) :
    new_dora2idx tile = .ok (4 * 8192 + 4 * 1024 + 0 * 256 + tile) := by
  have := or_parts 4 4 0 tile (by omega) (by omega) (by omega)
  simp only [Nat.zero_shiftLeft, Nat.or_zero] at this
  simp only [new_dora2idx, ht, if_true, EventStateTypes.NEW_DORA, EventTypes.NEW_DORA, this]
  rw [if_pos (by show _ ≤ 131072; omega)]

theorem nakiToken_ok (s who : Nat) (i : Int) (hs : s < 4) (hw : who < 4) (hi : 0 ≤ i) (hi2 : i < 256) :
    nakiToken s who i = .ok (s * 8192 + 2 * 1024 + who * 256 + i.toNat) := by
  have := or_parts s 2 who i.toNat (by omega) hw (by omega)
  simp only [nakiToken, EventTypes.NAKI, this]
  rw [if_pos (by show _ ≤ 131072; omega)]

/-- token of an accepted meld -/
theorem naki_token (who c : Nat) (hw : who < 4) (ty : MeldType) (hty : meldType c = some ty) :
    ∃ n : Nat, n < 256 ∧
      (ty = .kakan ∨ ty = .ankan → 3 ≤ n ∧ Code.get_during_turn_filter_idx c = .ok n ∧
        naki2idx who c = .ok (2 * 8192 + 2 * 1024 + who * 256 + n)) ∧
      (ty = .chi ∨ ty = .pon ∨ ty = .minkan → 2 ≤ n ∧ Code.get_post_turn_filter_idx c = .ok (n : Int) ∧
        naki2idx who c = .ok (3 * 8192 + 2 * 1024 + who * 256 + n)) := by
  have post : ∀ i : Int, Code.get_post_turn_filter_idx c = .ok i →
      2 ≤ i.toNat ∧ i.toNat < 256 ∧ Code.get_post_turn_filter_idx c = .ok (i.toNat : Int) ∧
      nakiToken EventStateTypes.POST who i = .ok (3 * 8192 + 2 * 1024 + who * 256 + i.toNat) := by
    intro i h
    have hb := Code.post_bounds c i h
    refine ⟨by omega, by omega, ?_, nakiToken_ok 3 who i (by omega) hw (by omega) hb.2⟩
    rw [h]; congr 1; omega
  have during : ∀ i : Nat, Code.get_during_turn_filter_idx c = .ok i →
      3 ≤ i ∧ i < 256 ∧
      nakiToken EventStateTypes.DURING who (i : Int) = .ok (2 * 8192 + 2 * 1024 + who * 256 + i) := by
    intro i h
    have hb := Code.during_bounds c i h
    refine ⟨by omega, by omega, ?_⟩
    have := nakiToken_ok 2 who (i : Int) (by omega) hw (by omega) (by omega)
    simpa [EventStateTypes.DURING] using this
  rw [Code.meldType_eq] at hty
  cases h1 : Code.is_chi c
  · cases h2 : Code.is_pon c
    · cases h3 : Code.is_kakan c
      · cases h4 : Code.is_minkan c
        · cases h5 : Code.is_ankan c
          · simp [h1, h2, h3, h4, h5] at hty
          · simp [h1, h2, h3, h4, h5] at hty
            subst hty
            have hd := Code.during_ankan c h5
            have := during _ hd
            refine ⟨_, this.2.1, fun _ => ⟨this.1, hd, ?_⟩, by simp⟩
            simp only [naki2idx, hw, h1, h2, h3, h4, h5, hd, if_true, Bool.false_eq_true, if_false]
            exact this.2.2
        · simp [h1, h2, h3, h4] at hty
          subst hty
          have hd := Code.post_minkan c h1 h2 h4
          have := post _ hd
          refine ⟨_, this.2.1, by simp, fun _ => ⟨this.1, this.2.2.1, ?_⟩⟩
          simp only [naki2idx, hw, h1, h2, h3, h4, hd, if_true, Bool.false_eq_true, if_false]
          exact this.2.2.2
      · simp [h1, h2, h3] at hty
        subst hty
        have hd := Code.during_kakan c h3
        have := during _ hd
        refine ⟨_, this.2.1, fun _ => ⟨this.1, hd, ?_⟩, by simp⟩
        simp only [naki2idx, hw, h1, h2, h3, hd, if_true, Bool.false_eq_true, if_false]
        exact this.2.2
    · simp [h1, h2] at hty
      subst hty
      have : ∃ i, Code.get_post_turn_filter_idx c = .ok i := by
        rcases Code.post_pon c h1 h2 with h | h
        · exact ⟨_, h⟩
        · exact ⟨_, h.2⟩
      obtain ⟨i, hd⟩ := this
      have := post _ hd
      refine ⟨_, this.2.1, by simp, fun _ => ⟨this.1, this.2.2.1, ?_⟩⟩
      simp only [naki2idx, hw, h1, h2, hd, if_true, Bool.false_eq_true, if_false]
      exact this.2.2.2
  · simp [h1] at hty
    subst hty
    have : ∃ i, Code.get_post_turn_filter_idx c = .ok i := by
      by_cases hr : Code.redHandChi c
      · exact ⟨_, Code.post_chi_red c hr⟩
      · exact ⟨_, Code.post_chi_plain c h1 hr⟩
    obtain ⟨i, hd⟩ := this
    have := post _ hd
    refine ⟨_, this.2.1, by simp, fun _ => ⟨this.1, this.2.2.1, ?_⟩⟩
    simp only [naki2idx, hw, h1, hd, if_true]
    exact this.2.2.2

/-! ## C12 -/

/-- The encoder recovers everything about a discard from its token. -/
theorem C12_discard_decodable (who tile : Nat) (ts : Bool) (hw : who < 4) (ht : tile < 37) :
    ∃ t, discard2idx who tile ts = .ok t ∧
      (readToken t).event_type = EventStateTypes.DISCARD ∧ (readToken t).player_idx = who ∧
      (readToken t).tile_encoding = tile ∧ (readToken t).tsumogiri = ts.toNat := by
  have hts := Bool.toNat_le ts
  refine ⟨_, discard_token who tile ts hw ht, ?_⟩
  rw [readToken, tokenFields_parts 1 2 who _ (by omega) (by omega) hw (by omega)]
  refine ⟨rfl, rfl, ?_, ?_⟩ <;> simp only <;> omega

/-- Different discards get different tokens. -/
theorem C12_discard_injective (w w' k k' : Nat) (s s' : Bool) (hw : w < 4) (hw' : w' < 4)
    (hk : k < 37) (hk' : k' < 37) (h : discard2idx w k s = discard2idx w' k' s') :
    w = w' ∧ k = k' ∧ s = s' := by
  rw [discard_token w k s hw hk, discard_token w' k' s' hw' hk'] at h
  simp only [Except.ok.injEq] at h
  have h1 := Bool.toNat_le s
  have h2 := Bool.toNat_le s'
  refine ⟨by omega, by omega, ?_⟩
  have : s.toNat = s'.toNat := by omega
  cases s <;> cases s' <;> simp_all

example : discard2idx 2 36 true = .ok 0x2AA4 ∧ (readToken 0x2AA4).tile_encoding = 36 := by decide

/-! ## C13 -/

/-- own-turn melds are announced in the own turn, calls after a discard -/
def stateOf : MeldType → Nat
  | .kakan | .ankan => EventStateTypes.DURING
  | .chi | .pon | .minkan => EventStateTypes.POST

/-- The encoder recovers the phase, the player and the action number of every accepted
meld from its token; the action number is the one of the phase, fits in 8 bits and is at
least 2. -/
theorem C13_naki_decodable (who c : Nat) (hw : who < 4) (ty : MeldType) (hty : meldType c = some ty) :
    ∃ t i, naki2idx who c = .ok t ∧
      (readToken t).event_type = stateOf ty ∧ (readToken t).player_idx = who ∧
      (readToken t).embedding_type = EventTypes.NAKI ∧
      (readToken t).naki_idx = i ∧ 2 ≤ i ∧
      (stateOf ty = EventStateTypes.DURING → Code.get_during_turn_filter_idx c = .ok i ∧ 3 ≤ i) ∧
      (stateOf ty = EventStateTypes.POST → Code.get_post_turn_filter_idx c = .ok (i : Int)) := by
  obtain ⟨n, hn, h1, h2⟩ := naki_token who c hw ty hty
  by_cases hd : ty = .kakan ∨ ty = .ankan
  · obtain ⟨a1, a2, a3⟩ := h1 hd
    refine ⟨_, n, a3, ?_⟩
    rw [readToken, tokenFields_parts 2 2 who n (by omega) (by omega) hw hn]
    have hs : stateOf ty = 2 := by rcases hd with rfl | rfl <;> rfl
    refine ⟨hs.symm, rfl, rfl, rfl, by omega, fun _ => ⟨a2, a1⟩, fun h => ?_⟩
    rw [hs] at h; exact absurd h (by decide)
  · have hp : ty = .chi ∨ ty = .pon ∨ ty = .minkan := by
      cases ty <;> simp_all
    obtain ⟨a1, a2, a3⟩ := h2 hp
    refine ⟨_, n, a3, ?_⟩
    rw [readToken, tokenFields_parts 3 2 who n (by omega) (by omega) hw hn]
    have hs : stateOf ty = 3 := by rcases hp with rfl | rfl | rfl <;> rfl
    refine ⟨hs.symm, rfl, rfl, rfl, a1, fun h => ?_, fun _ => a2⟩
    rw [hs] at h; exact absurd h (by decide)

/-- A code that is no meld gives `ValueError`, a bad player `AssertionError`. -/
theorem C13_naki_rejects (who c : Nat) :
    (4 ≤ who → naki2idx who c = .error .assertion) ∧
    (who < 4 → meldType c = none → naki2idx who c = .error .value) := by
  constructor
  · intro h
    simp [naki2idx, Nat.not_lt.2 h]
  · intro h hm
    rw [Code.meldType_eq] at hm
    cases h1 : Code.is_chi c <;> cases h2 : Code.is_pon c <;> cases h3 : Code.is_kakan c <;>
      cases h4 : Code.is_minkan c <;> cases h5 : Code.is_ankan c <;>
      simp [h1, h2, h3, h4, h5] at hm
    simp [naki2idx, h, h1, h2, h3, h4, h5]

/-- The encoder recovers the player of a riichi. -/
theorem C13_reach_decodable (who : Nat) (hw : who < 4) :
    ∃ t, reach2idx who = .ok t ∧ (readToken t).event_type = EventStateTypes.DURING ∧
      (readToken t).embedding_type = EventTypes.RIICHI ∧
      (readToken t).player_idx = who ∧ (readToken t).naki_idx = 2 := by
  refine ⟨_, reach_token who hw, ?_⟩
  rw [readToken, tokenFields_parts 2 3 who _ (by omega) (by omega) hw (by omega)]
  exact ⟨rfl, rfl, rfl, rfl⟩

/-- The encoder recovers the tile index of a new dora indicator. -/
theorem C13_dora_decodable (tile : Nat) (ht : tile < 37) :
    ∃ t, new_dora2idx tile = .ok t ∧ (readToken t).event_type = EventStateTypes.NEW_DORA ∧
      (readToken t).embedding_type = EventTypes.NEW_DORA ∧
      (readToken t).tile_encoding = tile := by
  refine ⟨_, dora_token tile ht, ?_⟩
  rw [readToken, tokenFields_parts 4 4 0 _ (by omega) (by omega) (by omega) (by omega)]
  exact ⟨rfl, rfl, by simp only; omega⟩

example : meldType 0x1C2F = some .chi ∧ naki2idx 1 0x1C2F = .ok 0x6945 ∧
    (readToken 0x6945).naki_idx = 69 ∧ (readToken 0x6945).player_idx = 1 := by decide

/-! ## C14 -/

/-- the events that produce tokens -/
inductive TokenEvent
  | discard (who tile : Nat) (tsumogiri : Bool)
  | naki (who code : Nat)
  | reach (who : Nat)
  | dora (tile : Nat)

/-- the token function used for an event -/
def TokenEvent.token : TokenEvent → Except PyErr Nat
  | .discard w k s => discard2idx w k s
  | .naki w c => naki2idx w c
  | .reach w => reach2idx w
  | .dora k => new_dora2idx k

/-- players and tile indices as in the log; `discard2idx` does not check the player -/
def TokenEvent.Valid : TokenEvent → Prop
  | .discard w _ _ => w < 4
  | _ => True

/-- class of an event -/
def TokenEvent.cls : TokenEvent → Nat
  | .discard .. => 0
  | .naki .. => 1
  | .reach .. => 2
  | .dora .. => 3

theorem token_form (e : TokenEvent) (hv : e.Valid) (t : Nat) (h : e.token = .ok t) :
    ∃ s p n, n < 256 ∧ p < 4 ∧
      ((e.cls = 0 ∧ t = 1 * 8192 + 2 * 1024 + p * 256 + n) ∨
       (e.cls = 1 ∧ (s = 2 ∨ s = 3) ∧ (s = 2 → 3 ≤ n) ∧ t = s * 8192 + 2 * 1024 + p * 256 + n) ∨
       (e.cls = 2 ∧ n = 2 ∧ t = 2 * 8192 + 3 * 1024 + p * 256 + n) ∨
       (e.cls = 3 ∧ p = 0 ∧ t = 4 * 8192 + 4 * 1024 + p * 256 + n)) := by
  cases e with
  | discard w k s =>
    have hk : k < 37 := by
      simp only [TokenEvent.token, discard2idx] at h
      split at h
      · assumption
      · simp at h
    have hts := Bool.toNat_le s
    simp only [TokenEvent.token, discard_token w k s hv hk, Except.ok.injEq] at h
    exact ⟨0, w, s.toNat * 128 + k, by omega, hv, .inl ⟨rfl, h.symm⟩⟩
  | naki w c =>
    have hw : w < 4 := by
      rcases Nat.lt_or_ge w 4 with hw | hw
      · exact hw
      · simp [TokenEvent.token, (C13_naki_rejects w c).1 hw] at h
    cases hm : meldType c with
    | none => simp [TokenEvent.token, (C13_naki_rejects w c).2 hw hm] at h
    | some ty =>
      obtain ⟨n, hn, h1, h2⟩ := naki_token w c hw ty hm
      by_cases hd : ty = .kakan ∨ ty = .ankan
      · obtain ⟨a1, _, a3⟩ := h1 hd
        simp only [TokenEvent.token, a3, Except.ok.injEq] at h
        exact ⟨2, w, n, hn, hw, .inr (.inl ⟨rfl, .inl rfl, fun _ => a1, h.symm⟩)⟩
      · have hp : ty = .chi ∨ ty = .pon ∨ ty = .minkan := by
          cases ty <;> simp_all
        obtain ⟨_, _, a3⟩ := h2 hp
        simp only [TokenEvent.token, a3, Except.ok.injEq] at h
        exact ⟨3, w, n, hn, hw, .inr (.inl ⟨rfl, .inr rfl, fun h => absurd h (by decide), h.symm⟩)⟩
  | reach w =>
    have hw : w < 4 := by
      rcases Nat.lt_or_ge w 4 with hw | hw
      · exact hw
      · simp [TokenEvent.token, reach2idx, Nat.not_lt.2 hw] at h
    simp only [TokenEvent.token, reach_token w hw, Except.ok.injEq] at h
    exact ⟨0, w, 2, by omega, hw, .inr (.inr (.inl ⟨rfl, rfl, h.symm⟩))⟩
  | dora k =>
    have hk : k < 37 := by
      rcases Nat.lt_or_ge k 37 with hk | hk
      · exact hk
      · simp [TokenEvent.token, new_dora2idx, Nat.not_lt.2 hk] at h
    simp only [TokenEvent.token, dora_token k hk, Except.ok.injEq] at h
    exact ⟨0, 0, k, by omega, by omega, .inr (.inr (.inr ⟨rfl, rfl, h.symm⟩))⟩

/-- Tokens of different event classes differ, no token is the padding value, and all
fit the embedding limit. -/
theorem C14_no_collision (e : TokenEvent) (hv : e.Valid) (t : Nat) (h : e.token = .ok t) :
    t ≠ padId ∧ t ≤ 2 ^ 17 ∧ (readToken t).event_type ≠ EventStateTypes.EMPTY ∧
    ∀ e' : TokenEvent, e'.Valid → e'.token = .ok t → e'.cls = e.cls := by
  obtain ⟨s, p, n, hn, hp, hf⟩ := token_form e hv t h
  refine ⟨?_, ?_, ?_, ?_⟩
  · show t ≠ 0
    omega
  · omega
  · show _ ≠ 0
    rcases hf with ⟨_, rfl⟩ | ⟨_, rfl | rfl, _, rfl⟩ | ⟨_, rfl, rfl⟩ | ⟨_, rfl, rfl⟩
    · rw [readToken, tokenFields_parts 1 2 p n (by omega) (by omega) hp hn]; simp
    · rw [readToken, tokenFields_parts 2 2 p n (by omega) (by omega) hp hn]; simp
    · rw [readToken, tokenFields_parts 3 2 p n (by omega) (by omega) hp hn]; simp
    · rw [readToken, tokenFields_parts 2 3 p 2 (by omega) (by omega) hp hn]; simp
    · rw [readToken, tokenFields_parts 4 4 0 n (by omega) (by omega) hp hn]; simp
  · intro e' hv' h'
    obtain ⟨s', p', n', hn', hp', hf'⟩ := token_form e' hv' t h'
    omega

example : (TokenEvent.reach 3).token = .ok 0x4F02 ∧ (TokenEvent.naki 3 0x1000).token = .ok 0x4B07 := by decide

/-! ## C15 -/

/-- the event type constant an event should carry -/
def TokenEvent.eventType : TokenEvent → Nat
  | .discard .. => EventTypes.DISCARD
  | .naki .. => EventTypes.NAKI
  | .reach .. => EventTypes.RIICHI
  | .dora .. => EventTypes.NEW_DORA

/-- The full statement fails: discards carry the type of melds. -/
theorem C15_type_field_violated :
    ¬ ∀ e : TokenEvent, e.Valid → ∀ t, e.token = .ok t → (readToken t).embedding_type = e.eventType := by
  intro h
  have := h (.discard 0 0 false) (by show 0 < 4; decide) 0x2800 (by decide)
  revert this
  decide

/-- Every discard is wrong, all other events are right. -/
theorem C15_type_field_partial (e : TokenEvent) (hv : e.Valid) (t : Nat) (h : e.token = .ok t) :
    (e.cls = 0 → (readToken t).embedding_type = EventTypes.NAKI) ∧
    (e.cls ≠ 0 → (readToken t).embedding_type = e.eventType) := by
  obtain ⟨s, p, n, hn, hp, hf⟩ := token_form e hv t h
  rcases hf with ⟨hc, rfl⟩ | ⟨hc, rfl | rfl, _, rfl⟩ | ⟨hc, rfl, rfl⟩ | ⟨hc, rfl, rfl⟩
  · rw [readToken, tokenFields_parts 1 2 p n (by omega) (by omega) hp hn]
    exact ⟨fun _ => rfl, fun h => absurd hc h⟩
  all_goals refine ⟨fun h => by omega, fun _ => ?_⟩
  · rw [readToken, tokenFields_parts 2 2 p n (by omega) (by omega) hp hn]
    cases e <;> simp [TokenEvent.cls] at hc <;> rfl
  · rw [readToken, tokenFields_parts 3 2 p n (by omega) (by omega) hp hn]
    cases e <;> simp [TokenEvent.cls] at hc <;> rfl
  · rw [readToken, tokenFields_parts 2 3 p 2 (by omega) (by omega) hp hn]
    cases e <;> simp [TokenEvent.cls] at hc <;> rfl
  · rw [readToken, tokenFields_parts 4 4 0 n (by omega) (by omega) hp hn]
    cases e <;> simp [TokenEvent.cls] at hc <;> rfl

end MJ
