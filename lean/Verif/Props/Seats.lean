import Verif.Props.Distinct
/-!
C176: the ordered network sees an event from the seat of the player who is asked, and nothing else of the seats.
-/
namespace MJ
open Spec Net

/-- the event with seats counted from the given player -/
def TokenEvent.seenFrom (pl : Int) : TokenEvent → TokenEvent
  | .discard w k b => .discard (seen pl w) k b
  | .naki w c => .naki (seen pl w) c
  | .reach w => .reach (seen pl w)
  | .dora k => .dora k

theorem seenFrom_real (pl : Int) {e : TokenEvent} (hr : e.Real) : (e.seenFrom pl).Real := by
  obtain ⟨hv, hw⟩ := hr
  cases e with
  | discard w k b => exact ⟨seen_lt pl w, fun _ _ h => by cases h⟩
  | naki w c =>
    refine ⟨trivial, fun w' c' h => ?_⟩
    cases h
    exact hw w c rfl
  | reach w => exact ⟨trivial, fun _ _ h => by cases h⟩
  | dora k => exact ⟨trivial, fun _ _ h => by cases h⟩

/-- the token of an event and that of the event seen from a player -/
theorem seenFrom_token (pl : Int) {e : TokenEvent} (hr : e.Real) {n : Nat} (h : e.token = .ok n) :
    ∃ s y p k, n = s * 8192 + y * 1024 + p * 256 + k ∧ p < 4 ∧ k < 256 ∧ 1 ≤ s ∧ s ≤ 4 ∧ y ≤ 4 ∧
      ((s ≤ 3 ∧ (e.seenFrom pl).token = .ok (s * 8192 + y * 1024 + seen pl p * 256 + k)) ∨
       (s = 4 ∧ (e.seenFrom pl).token = .ok n)) := by
  obtain ⟨hv, hw⟩ := hr
  cases e with
  | discard w k b =>
    have hk : k < 37 := by
      simp only [TokenEvent.token, discard2idx] at h
      split at h
      · assumption
      · simp at h
    have hts := Bool.toNat_le b
    simp only [TokenEvent.token, discard_token w k b hv hk, Except.ok.injEq] at h
    exact ⟨1, 2, w, b.toNat * 128 + k, h.symm, hv, by omega, by omega, by omega, by omega,
      .inl ⟨by omega, discard_token _ k b (seen_lt pl w) hk⟩⟩
  | naki w c =>
    have hw4 : w < 4 := by
      rcases Nat.lt_or_ge w 4 with hw | hw
      · exact hw
      · simp [TokenEvent.token, (C13_naki_rejects w c).1 hw] at h
    cases hm : Spec.meldType c with
    | none => simp [TokenEvent.token, (C13_naki_rejects w c).2 hw4 hm] at h
    | some ty =>
      obtain ⟨k, hk, h1, h2⟩ := naki_token w c hw4 ty hm
      obtain ⟨k', hk', h1', h2'⟩ := naki_token (seen pl w) c (seen_lt pl w) ty hm
      by_cases hd : ty = .kakan ∨ ty = .ankan
      · obtain ⟨-, a2, a3⟩ := h1 hd
        obtain ⟨-, a2', a3'⟩ := h1' hd
        rw [a2, Except.ok.injEq] at a2'
        subst a2'
        simp only [TokenEvent.token, a3, Except.ok.injEq] at h
        exact ⟨2, 2, w, k, h.symm, hw4, hk, by omega, by omega, by omega, .inl ⟨by omega, a3'⟩⟩
      · have hp : ty = .chi ∨ ty = .pon ∨ ty = .minkan := by
          cases ty <;> simp_all
        obtain ⟨-, a2, a3⟩ := h2 hp
        obtain ⟨-, a2', a3'⟩ := h2' hp
        rw [a2, Except.ok.injEq, Nat.cast_inj] at a2'
        subst a2'
        simp only [TokenEvent.token, a3, Except.ok.injEq] at h
        exact ⟨3, 2, w, k, h.symm, hw4, hk, by omega, by omega, by omega, .inl ⟨by omega, a3'⟩⟩
  | reach w =>
    have hw : w < 4 := by
      rcases Nat.lt_or_ge w 4 with hw | hw
      · exact hw
      · simp [TokenEvent.token, reach2idx, Nat.not_lt.2 hw] at h
    simp only [TokenEvent.token, reach_token w hw, Except.ok.injEq] at h
    exact ⟨2, 3, w, 2, h.symm, hw, by omega, by omega, by omega, by omega, .inl ⟨by omega, reach_token _ (seen_lt pl w)⟩⟩
  | dora k =>
    have hk : k < 37 := by
      rcases Nat.lt_or_ge k 37 with hk | hk
      · exact hk
      · simp [TokenEvent.token, new_dora2idx, Nat.not_lt.2 hk] at h
    have h' := h
    simp only [TokenEvent.token, dora_token k hk, Except.ok.injEq] at h
    exact ⟨4, 4, 0, k, h.symm, by omega, by omega, by omega, by omega, by omega, .inr ⟨rfl, h'⟩⟩

/-- the embedding of an event for a player is that of the event seen from there for player 0 -/
theorem seenFrom_embedding {V : Type} [Zero V] [Add V] (T : Tables V) (pl : Int) {e : TokenEvent} (hr : e.Real) {n : Nat} (h : e.token = .ok n) :
    ∃ m, (e.seenFrom pl).token = .ok m ∧ ∀ pos < 150, embedOrdered T pl pos (BitVec.ofNat 64 n) = embedOrdered T 0 pos (BitVec.ofNat 64 m) := by
  obtain ⟨s, y, p, k, rfl, hp, hk, hs1, hs4, hy, hf⟩ := seenFrom_token pl hr h
  have t1 := tokenFields_parts s y p k (by omega) (by omega) hp hk
  rcases hf with ⟨hs, hm⟩ | ⟨rfl, hm⟩
  · refine ⟨_, hm, fun pos hpos => ?_⟩
    have t2 := tokenFields_parts s y (seen pl p) k (by omega) (by omega) (seen_lt pl p) hk
    rw [embedOrdered_eq T pl pos _ hpos (by rw [t1]; exact hy), embedOrdered_eq T 0 pos _ hpos (by rw [t2]; exact hy), t1, t2]
    dsimp only
    have : (((seen pl p : Nat) : Int) - 0) % 4 = ((p : Int) - pl) % 4 := by unfold seen; omega
    rw [this]
  · refine ⟨_, hm, fun pos hpos => ?_⟩
    rw [embedOrdered_eq T pl pos _ hpos (by rw [t1]; exact hy), embedOrdered_eq T 0 pos _ hpos (by rw [t1]; exact hy), t1]
    simp [masked]

theorem padding_any {V : Type} [Zero V] [Add V] (T : Tables V) (pl pl' : Int) {pos : Nat} (hpos : pos < 150) :
    embedOrdered T pl pos (BitVec.ofNat 64 padId) = embedOrdered T pl' pos (BitVec.ofNat 64 padId) := by
  have hf : tokenFields (BitVec.ofNat 64 padId) = ⟨0, 0, 0, 0, 0, 0⟩ := by decide
  rw [embedOrdered_eq T pl pos _ hpos (by rw [hf]; decide), embedOrdered_eq T pl' pos _ hpos (by rw [hf]; decide), hf]
  simp [masked]

/-- two tokens are padding, or those of events that are the same when each is seen from its player -/
def SeenSame (pl pl' : Int) (u u' : BitVec 64) : Prop :=
  (u = BitVec.ofNat 64 padId ∧ u' = BitVec.ofNat 64 padId) ∨
  ∃ (e e' : TokenEvent) (n n' : Nat), e.Real ∧ e'.Real ∧ e.token = .ok n ∧ e'.token = .ok n' ∧ u = BitVec.ofNat 64 n ∧ u' = BitVec.ofNat 64 n' ∧
    (e.seenFrom pl).token = (e'.seenFrom pl').token

/-- C176: for samples of any two players: the ordered network can tell them apart exactly if the states differ or at some position the
events differ when each is seen from the player who is asked. -/
theorem C176_seats (gelu : ℝ → ℝ) (nEnc : ℕ) {nDec : ℕ} (hn : 0 < nDec) {h : HeadName} {B B' : ℕ} (X : Input .ordered h B)
    (Y : Input .ordered h B') (hX : X.Good) (hY : Y.Good) (b : Fin B) (b' : Fin B')
    (hw : ∀ t, Written (X.tokens b t)) (hw' : ∀ t, Written (Y.tokens b' t)) (a : Fin (actionDim h)) (ha : X.mask b a ≠ 0)
    (ha' : Y.mask b' a ≠ 0) :
    TellsApart gelu nEnc nDec X Y b b' a ↔
      ¬ (SameState X Y b b' ∧ ∀ t, SeenSame (X.player b) (Y.player b') (X.tokens b t) (Y.tokens b' t)) := by
  constructor
  · rintro ht ⟨hs, hk⟩
    refine not_tellsApart ha ha' hs (fun T t => ?_) ht
    unfold embed
    rcases hk t with ⟨h1, h2⟩ | ⟨e, e', n, n', hr, hr', he, he', h1, h2, h3⟩
    · rw [h1, h2]
      exact padding_any T _ _ t.isLt
    · obtain ⟨m, e1, e2⟩ := seenFrom_embedding T (X.player b) hr he
      obtain ⟨m', e1', e2'⟩ := seenFrom_embedding T (Y.player b') hr' he'
      rw [h1, h2]
      dsimp only
      rw [e2 _ t.isLt, e2' _ t.isLt]
      rw [h3, e1', Except.ok.injEq] at e1
      rw [e1]
  · intro hne
    by_cases hs : SameState X Y b b'
    · obtain ⟨t₀, h0⟩ := not_forall.1 (fun e => hne ⟨hs, e⟩)
      have flip : ∀ {pl pl' u u'}, SeenSame pl pl' u u' → SeenSame pl' pl u' u := by
        rintro pl pl' u u' (⟨h1, h2⟩ | ⟨e, e', n, n', hr, hr', he, he', h1, h2, h3⟩)
        · exact .inl ⟨h2, h1⟩
        · exact .inr ⟨e', e, n', n, hr', hr, he', he, h2, h1, h3.symm⟩
      have key : ∀ {C C' : ℕ} (V : Input .ordered h C) (W : Input .ordered h C'), V.Good → W.Good → ∀ (c : Fin C) (c' : Fin C'),
          (∀ t, Written (W.tokens c' t)) → V.mask c a ≠ 0 → W.mask c' a ≠ 0 →
          ¬ SeenSame (V.player c) (W.player c') (V.tokens c t₀) (W.tokens c' t₀) →
          (∃ (e : TokenEvent) (n : Nat), e.Real ∧ e.token = .ok n ∧ V.tokens c t₀ = BitVec.ofNat 64 n) →
          TellsApart gelu nEnc nDec V W c c' a := by
        rintro C C' V W hV hW c c' hww hm hm' hd ⟨e, n, hr, he, hu⟩
        obtain ⟨x, hx⟩ := embed_total .ordered apartTables (V.player c) t₀.val t₀.isLt _ (hV.types c t₀)
        refine tells_of gelu nEnc hn V W hV hW c c' a hm hm' apartTables ⟨rfl, fun _ _ => rfl, fun _ _ => rfl⟩ x t₀ hx ?_
        intro t
        rw [← hx, hu]
        show embedOrdered _ _ _ _ ≠ embedOrdered _ _ _ _
        rcases hww t with h1 | ⟨e', n', hr', he', h1⟩
        · rw [h1, padding_any apartTables (W.player c') (V.player c) t.isLt]
          exact (apart_padding _ hr he t₀.isLt t.isLt).symm
        · intro h2
          obtain ⟨m, e1, e2⟩ := seenFrom_embedding apartTables (V.player c) hr he
          obtain ⟨m', e1', e2'⟩ := seenFrom_embedding apartTables (W.player c') hr' he'
          rw [h1, e2 _ t₀.isLt, e2' _ t.isLt] at h2
          obtain ⟨h3, h4⟩ := apart_all _ (seenFrom_real _ hr') (seenFrom_real _ hr) e1' e1 t.isLt t₀.isLt h2
          rw [Fin.ext h3] at h1
          exact hd (.inr ⟨e, e', n, n', hr, hr', he, he', hu, h1, by rw [e1, e1', h4]⟩)
      rcases hw t₀ with h1 | h1
      · rcases hw' t₀ with h2 | h2
        · exact absurd (.inl ⟨h1, h2⟩) h0
        · exact (key Y X hY hX b' b hw ha' ha (fun h3 => h0 (flip h3)) h2).symm
      · exact key X Y hX hY b b' hw' ha ha' h0 h1
    · refine C129_run gelu nEnc nDec X Y hX hY b b' a ha ha' ?_
      unfold SameState at hs
      tauto

/-- the same discard by the player on the right, for player 0 and for player 2 -/
example : SeenSame 0 2 (BitVec.ofNat 64 0x2901) (BitVec.ofNat 64 0x2B01) :=
  .inr ⟨.discard 1 1 false, .discard 3 1 false, 0x2901, 0x2B01, ⟨by simp [TokenEvent.Valid], by simp⟩, ⟨by simp [TokenEvent.Valid], by simp⟩,
    by decide, by decide, rfl, rfl, by decide⟩

end MJ
