import Verif.Props.Embedding
import Verif.Proofs.InfluenceNet
import Verif.Model.Dropout
/-!
C173: which events the basic and the convolutional networks can tell apart.
-/
namespace MJ
open Spec

/-- what the basic and the convolutional networks see of an event -/
inductive Look
  | kept (tile : Nat)
  | drawn (tile : Nat)
  | riichi
  | ownKan (action : Nat)
  | call (action : Nat)
  | indicator (tile : Nat)
  deriving DecidableEq

/-- Discarded tiles are seen, but if the tile had just been drawn, those from 25 on (eight and nine of bamboos, honours, red fives) look
the same.  Own kans are seen.  Of the calls, those with the numbers 70 to 127 look the same.  Players are not seen. -/
def TokenEvent.look : TokenEvent → Look
  | .discard _ k false => .kept k
  | .discard _ k true => .drawn (min k 25)
  | .reach _ => .riichi
  | .dora k => .indicator k
  | .naki _ c =>
    if meldType c = some .kakan ∨ meldType c = some .ankan then
      match Code.get_during_turn_filter_idx c with
      | .ok n => .ownKan n
      | .error _ => .ownKan 0
    else match Code.get_post_turn_filter_idx c with
      | .ok n => .call (if 70 ≤ n ∧ n < 128 then 70 else n.toNat)
      | .error _ => .call 0

/-- the token of an event and what is seen of it -/
theorem look_token (e : TokenEvent) (hr : e.Real) (t : Nat) (h : e.token = .ok t) :
    ∃ s y p n, t = s * 8192 + y * 1024 + p * 256 + n ∧ p < 4 ∧ n < 256 ∧
      ((s = 1 ∧ y = 2 ∧ n < 37 ∧ e.look = .kept n) ∨ (s = 1 ∧ y = 2 ∧ 128 ≤ n ∧ n < 165 ∧ e.look = .drawn (min (n - 128) 25)) ∨
       (s = 2 ∧ y = 2 ∧ 3 ≤ n ∧ n ≤ 70 ∧ e.look = .ownKan n) ∨
       (s = 3 ∧ y = 2 ∧ 2 ≤ n ∧ n ≤ 153 ∧ e.look = .call (if 70 ≤ n ∧ n < 128 then 70 else n)) ∨
       (s = 2 ∧ y = 3 ∧ n = 2 ∧ e.look = .riichi) ∨ (s = 4 ∧ y = 4 ∧ p = 0 ∧ n < 37 ∧ e.look = .indicator n)) := by
  obtain ⟨hv, hw⟩ := hr
  cases e with
  | discard w k b =>
    have hk : k < 37 := by
      simp only [TokenEvent.token, discard2idx] at h
      split at h
      · assumption
      · simp at h
    simp only [TokenEvent.token, discard_token w k b hv hk, Except.ok.injEq] at h
    have hw4 : w < 4 := hv
    cases b
    · exact ⟨1, 2, w, k, by rw [← h]; simp, hv, by omega, .inl ⟨rfl, rfl, hk, rfl⟩⟩
    · refine ⟨1, 2, w, 128 + k, by rw [← h]; simp, hv, by omega, .inr (.inl ⟨rfl, rfl, by omega, by omega, ?_⟩)⟩
      simp [TokenEvent.look]
  | naki w c =>
    have wf := hw w c rfl
    have hw : w < 4 := by
      rcases Nat.lt_or_ge w 4 with hw | hw
      · exact hw
      · simp [TokenEvent.token, (C13_naki_rejects w c).1 hw] at h
    cases hm : Spec.meldType c with
    | none => simp [TokenEvent.token, (C13_naki_rejects w c).2 hw hm] at h
    | some ty =>
      obtain ⟨n, hn, h1, h2⟩ := naki_token w c hw ty hm
      have r1 := C09_during_idx_range c wf
      have r2 := C10_post_idx_range c wf
      rw [hm] at r1 r2
      by_cases hd : ty = .kakan ∨ ty = .ankan
      · obtain ⟨a1, a2, a3⟩ := h1 hd
        simp only [TokenEvent.token, a3, Except.ok.injEq] at h
        have : n ≤ 70 := by
          rcases hd with rfl | rfl <;> obtain ⟨i, b1, b2⟩ := r1 <;> rw [a2] at b1 <;>
            simp only [Except.ok.injEq] at b1 <;> omega
        refine ⟨2, 2, w, n, h.symm, hw, hn, .inr (.inr (.inl ⟨rfl, rfl, a1, this, ?_⟩))⟩
        rw [TokenEvent.look, if_pos (by rw [hm]; simpa using hd), a2]
      · have hp : ty = .chi ∨ ty = .pon ∨ ty = .minkan := by
          cases ty <;> simp_all
        obtain ⟨a1, a2, a3⟩ := h2 hp
        simp only [TokenEvent.token, a3, Except.ok.injEq] at h
        have : n ≤ 153 := by
          rcases hp with rfl | rfl | rfl <;> obtain ⟨i, b1, b2⟩ := r2 <;> rw [a2] at b1 <;>
            simp only [Except.ok.injEq] at b1 <;> omega
        refine ⟨3, 2, w, n, h.symm, hw, hn, .inr (.inr (.inr (.inl ⟨rfl, rfl, a1, this, ?_⟩)))⟩
        rw [TokenEvent.look, if_neg (by rw [hm]; simpa using hd), a2]
        dsimp only
        congr 1
        split <;> split <;> omega
  | reach w =>
    have hw : w < 4 := by
      rcases Nat.lt_or_ge w 4 with hw | hw
      · exact hw
      · simp [TokenEvent.token, reach2idx, Nat.not_lt.2 hw] at h
    simp only [TokenEvent.token, reach_token w hw, Except.ok.injEq] at h
    exact ⟨2, 3, w, 2, h.symm, hw, by omega, .inr (.inr (.inr (.inr (.inl ⟨rfl, rfl, rfl, rfl⟩))))⟩
  | dora k =>
    have hk : k < 37 := by
      rcases Nat.lt_or_ge k 37 with hk | hk
      · exact hk
      · simp [TokenEvent.token, new_dora2idx, Nat.not_lt.2 hk] at h
    simp only [TokenEvent.token, dora_token k hk, Except.ok.injEq] at h
    exact ⟨4, 4, 0, k, h.symm, by omega, by omega, .inr (.inr (.inr (.inr (.inr ⟨rfl, rfl, rfl, hk, rfl⟩))))⟩

/-- the rows of the tables that are added up for a look -/
def Look.embedding {V : Type} [Zero V] [Add V] (T : Tables V) (pos : Nat) : Look → V
  | .kept k => T.empty + 0 + 0 + 0 + T.tsumogiri 0 + T.position pos + T.during_naki k + T.post_naki k
  | .drawn k => T.empty + 0 + 0 + 0 + 0 + T.position pos + T.during_naki 70 + T.post_naki (128 + k)
  | .riichi => T.empty + 0 + T.tile 2 + 0 + T.tsumogiri 0 + T.position pos + T.during_naki 2 + T.post_naki 2
  | .ownKan n => T.empty + 0 + T.tile (min n 36) + 0 + T.tsumogiri 0 + T.position pos + 0 + T.post_naki n
  | .call n => T.empty + 0 + T.tile (min (n % 128) 36) + 0 + T.tsumogiri 0 + T.position pos + T.during_naki (min n 70) + 0
  | .indicator k => T.empty + 0 + 0 + T.player 0 + T.tsumogiri 0 + T.position pos + T.during_naki k + T.post_naki k

/-- C173: the embedding of an event in the basic and the convolutional networks. -/
theorem C173_embedding {V : Type} [Zero V] [Add V] (T : Tables V) (pos : Nat) (hp : pos < 150) (e : TokenEvent) (hr : e.Real) (t : Nat)
    (h : e.token = .ok t) : embedBasic T pos (BitVec.ofNat 64 t) = .ok (e.look.embedding T pos) := by
  obtain ⟨s, y, p, n, rfl, h1, h2, hf⟩ := look_token e hr t h
  have t1 := tokenFields_parts s y p n (by omega) (by omega) h1 h2
  rw [embedBasic_eq _ pos _ hp (by rw [t1]; simp only; omega), t1]
  clear t1 h
  rcases hf with ⟨rfl, rfl, a, l⟩ | ⟨rfl, rfl, a, b, l⟩ | ⟨rfl, rfl, a, b, l⟩ | ⟨rfl, rfl, a, b, l⟩ | ⟨rfl, rfl, rfl, l⟩ |
    ⟨rfl, rfl, rfl, a, l⟩ <;> rw [l]
  · have e1 : n / 128 = 0 := by omega
    have e2 : min n 70 = n := by omega
    have e3 : min n 153 = n := by omega
    simp [masked, Look.embedding, e1, e2, e3]
  · have e1 : n / 128 = 1 := by omega
    have e2 : min n 70 = 70 := by omega
    have e3 : min n 153 = 128 + min (n - 128) 25 := by omega
    simp [masked, Look.embedding, e1, e2, e3]
  · have e2 : n % 128 = n := by omega
    have e3 : min n 153 = n := by omega
    have e4 : ¬ n < 3 := by omega
    simp [masked, Look.embedding, e2, e3, e4]
  · have e4 : ¬ n < 2 := by omega
    have e5 : min (n % 128) 36 = min ((if 70 ≤ n ∧ n < 128 then 70 else n) % 128) 36 := by split <;> omega
    have e6 : min n 70 = min (if 70 ≤ n ∧ n < 128 then 70 else n) 70 := by split <;> omega
    simp only [Look.embedding, ← e5, ← e6]
    simp [masked, e4]
  · simp [masked, Look.embedding]
  · have e2 : min n 70 = n := by omega
    have e3 : min n 153 = n := by omega
    simp [masked, Look.embedding, e2, e3]

/-- tables that write each part in digits of its own -/
def partTables : Tables Int :=
  { empty := 0, position := fun _ => 0, type := fun _ => 0
    player := fun _ => 1
    during_naki := fun i => (i + 1) * 10
    post_naki := fun i => (i + 1) * 10000
    tile := fun i => (i + 1) * 10000000
    tsumogiri := fun _ => 1000000000 }

/-- C173: two events have the same embedding for all tables exactly if they look the same; there are tables that tell all others apart. -/
theorem C173_exact (e e' : TokenEvent) (hr : e.Real) (hr' : e'.Real) {t t' : Nat} (h : e.token = .ok t) (h' : e'.token = .ok t')
    {pos : Nat} (hp : pos < 150) :
    ((∀ T : Tables Int, embedBasic T pos (BitVec.ofNat 64 t) = embedBasic T pos (BitVec.ofNat 64 t')) ↔ e.look = e'.look) ∧
    (embedBasic partTables pos (BitVec.ofNat 64 t) = embedBasic partTables pos (BitVec.ofNat 64 t') → e.look = e'.look) := by
  have key : embedBasic partTables pos (BitVec.ofNat 64 t) = embedBasic partTables pos (BitVec.ofNat 64 t') → e.look = e'.look := by
    rw [C173_embedding _ pos hp e hr t h, C173_embedding _ pos hp e' hr' t' h']
    simp only [Except.ok.injEq]
    obtain ⟨s, y, p, n, -, -, -, hf⟩ := look_token e hr t h
    obtain ⟨s', y', p', n', -, -, -, hf'⟩ := look_token e' hr' t' h'
    clear h h' hr hr' hp
    rcases hf with ⟨-, -, a, l⟩ | ⟨-, -, a, b, l⟩ | ⟨-, -, a, b, l⟩ | ⟨-, -, a, b, l⟩ | ⟨-, -, -, l⟩ | ⟨-, -, -, a, l⟩ <;>
    rcases hf' with ⟨-, -, a', l'⟩ | ⟨-, -, a', b', l'⟩ | ⟨-, -, a', b', l'⟩ | ⟨-, -, a', b', l'⟩ | ⟨-, -, -, l'⟩ | ⟨-, -, -, a', l'⟩ <;>
    rw [l, l'] <;> simp only [Look.embedding, partTables, Look.kept.injEq, Look.drawn.injEq, Look.ownKan.injEq, Look.call.injEq,
      Look.indicator.injEq, reduceCtorEq, imp_false] <;> (try split) <;> (try split) <;> (try intro heq) <;> omega
  refine ⟨⟨fun hT => key (hT partTables), fun hl T => ?_⟩, key⟩
  rw [C173_embedding _ pos hp e hr t h, C173_embedding _ pos hp e' hr' t' h', hl]

/-- C173: all pons look the same: neither the kind nor the player is seen. -/
theorem C173_pons_violated {w w' c c' : Nat} (hc : WellFormed c) (hc' : WellFormed c') (hm : meldType c = some .pon)
    (hm' : meldType c' = some .pon) : (TokenEvent.naki w c).look = .call 70 ∧ (TokenEvent.naki w c).look = (TokenEvent.naki w' c').look := by
  have key : ∀ {w c : Nat}, WellFormed c → meldType c = some .pon → (TokenEvent.naki w c).look = .call 70 := by
    intro w c hc hm
    have h := C10_post_idx_range c hc
    rw [hm] at h
    obtain ⟨i, h1, h2, h3⟩ := h
    rw [TokenEvent.look, if_neg (by rw [hm]; simp), h1]
    dsimp only
    rw [if_pos (by omega)]
  exact ⟨key hc hm, (key hc hm).trans (key hc' hm').symm⟩

/-- C173: tiles 25 to 36, among them all honours and the red fives, look the same when they are discarded after being drawn. -/
theorem C173_drawn_violated {w w' k k' : Nat} (hk : 25 ≤ k) (hk' : 25 ≤ k') :
    (TokenEvent.discard w k true).look = (TokenEvent.discard w' k' true).look := by
  simp only [TokenEvent.look, Look.drawn.injEq]
  omega

/-- C173: padding does not have the zero embedding there; it has that of rows 0 of all tables but that of the positions. -/
theorem C173_padding {V : Type} [Zero V] [Add V] (T : Tables V) (pos : Nat) (hp : pos < 150) :
    embedBasic T pos (BitVec.ofNat 64 padId) = .ok (T.empty + T.type 0 + T.tile 0 + T.player 0 + T.tsumogiri 0 + 0 + T.during_naki 0 +
      T.post_naki 0) := by
  have hf : tokenFields (BitVec.ofNat 64 padId) = ⟨0, 0, 0, 0, 0, 0⟩ := by decide
  rw [embedBasic_eq T pos _ hp (by rw [hf]; decide), hf]
  simp [masked]

end MJ
namespace MJ.Net
open MJ.Spec

/-- the tokens are those of events that look the same -/
def LooksSame (t t' : BitVec 64) : Prop :=
  t = t' ∨ ∃ (e e' : TokenEvent) (n n' : Nat), e.Real ∧ e'.Real ∧ e.token = .ok n ∧ e'.token = .ok n' ∧ t = BitVec.ofNat 64 n ∧
    t' = BitVec.ofNat 64 n' ∧ e.look = e'.look

/-- C173: so the basic and the convolutional networks give the same logits and the same loss, whatever the parameters, if events are
replaced by others that look the same: they know neither who discarded, called or declared riichi, nor the kind of a pon. -/
theorem C173_network {v : Variant} (hv : v ≠ .ordered) {h : HeadName} {B : ℕ} (gelu : ℝ → ℝ) (p : Params v) (X : Input v h B)
    (tokens : Fin B → Fin 150 → BitVec 64) (hl : ∀ b t, LooksSame (X.tokens b t) (tokens b t)) :
    run gelu p { X with tokens := tokens } = run gelu p X ∧
    ∀ r, runDrop gelu p r { X with tokens := tokens } = runDrop gelu p r X := by
  have key : ∀ b t, embed v p.tables (X.player b) t.val (tokens b t) = embed v p.tables (X.player b) t.val (X.tokens b t) := by
    intro b t
    rcases hl b t with h1 | ⟨e, e', n, n', r, r', h1, h2, h3, h4, h5⟩
    · rw [h1]
    · have : ∀ u, embed v p.tables (X.player b) t.val u = embedBasic p.tables t.val u := by
        intro u
        cases v
        · rfl
        · rfl
        · exact absurd rfl hv
      rw [this, this, h3, h4, C173_embedding _ _ t.isLt e r n h1, C173_embedding _ _ t.isLt e' r' n' h2, h5]
  have he : embedAll p { X with tokens := tokens } = embedAll p X := by
    unfold embedAll
    by_cases h1 : ∀ b t, ∃ e, embed v p.tables (X.player b) t.val (X.tokens b t) = .ok e
    · rw [if_pos h1, if_pos (fun b t => by rw [key]; exact h1 b t)]
      simp only [key]
    · rw [if_neg h1, if_neg (fun h2 => h1 fun b t => by rw [← key]; exact h2 b t)]
  constructor
  · unfold run
    rw [he]
    rfl
  · intro r
    unfold runDrop
    rw [he]
    rfl

/-- real tables with the fixed rows -/
noncomputable def looksTables : Tables (Fin embdSize → ℝ) :=
  { empty := 0
    position := fun i j => positionTable embdSize i j
    player := fun i j => playerTable embdSize i j
    type := fun i _ => (partTables.type i : ℝ)
    tile := fun i _ => (partTables.tile i : ℝ)
    tsumogiri := fun i _ => (partTables.tsumogiri i : ℝ)
    during_naki := fun i _ => (partTables.during_naki i : ℝ)
    post_naki := fun i _ => (partTables.post_naki i : ℝ) }

theorem looks_embedding (l : Look) (pos : Nat) :
    l.embedding looksTables pos 1 = (l.embedding partTables pos : ℤ) + positionTable embdSize pos 1 := by
  have h : playerTable embdSize 0 1 = 1 := by simp [playerTable]
  cases l
  case call n =>
    simp only [Look.embedding, looksTables, partTables]
    generalize min (n % 128) 36 = a
    generalize min n 70 = b
    simp
    ring
  all_goals
    simp [Look.embedding, looksTables, h, partTables]
    try ring

theorem enc_row {B : ℕ} (gelu : ℝ → ℝ) (blocks : List EncoderBlock) (E : T3 B 150 embdSize) (b : Fin B) :
    encBlocks gelu blocks E b = blocks.foldl (encStep gelu) (E b) := by
  unfold encBlocks
  induction blocks generalizing E with
  | nil => rfl
  | cons e es ih => rw [List.foldl_cons, List.foldl_cons, ih]; rfl

theorem dec_row {B : ℕ} (v : Variant) (gelu : ℝ → ℝ) (blocks : List DecoderBlock) (ln : LayerNorm embdSize) (x : T2 B embdSize)
    (F : T3 B 150 embdSize) (b : Fin B) :
    decBlocks v gelu blocks ln x F b = ln.fwd (blocks.foldl (decStep v gelu (F b)) (x b)) := by
  have hb : ∀ v, v ≠ .ordered → blocks.foldl (fun x d => d.fwdBasic gelu x F) x b = blocks.foldl (decStep v gelu (F b)) (x b) := by
    intro v hv
    induction blocks generalizing x with
    | nil => rfl
    | cons e es ih =>
      rw [List.foldl_cons, List.foldl_cons, ih]
      congr 1
      cases v with
      | basic => rfl
      | conv => rfl
      | ordered => exact absurd rfl hv
  have ho : ∀ z : T3 B 1 embdSize, blocks.foldl (fun x d => d.fwdOrdered gelu x F) z b 0 = blocks.foldl (decStep .ordered gelu (F b)) (z b 0) := by
    clear hb
    induction blocks with
    | nil => intro z; rfl
    | cons e es ih =>
      intro z
      rw [List.foldl_cons, List.foldl_cons, ih]
      congr 1
  cases v with
  | basic => simp only [decBlocks]; rw [hb .basic (by decide)]
  | conv => simp only [decBlocks]; rw [hb .conv (by decide)]
  | ordered =>
    simp only [decBlocks, squeeze1]
    rw [ho]
    rfl

/-- state networks that do not look at their input -/
theorem state_zero (v : Variant) : ∃ s : StateNet v, ∀ x1 x2 x3, stateNet v s x1 x2 x3 = 0 := by
  have key : ∀ n (y : Fin n → ℝ) x2 x3, StateTail.fwd ⟨⟨0, 0⟩, ⟨0, 0⟩, ⟨0, 0⟩⟩ y x2 x3 = (0 : Fin embdSize → ℝ) := by
    intro n y x2 x3
    funext i
    unfold StateTail.fwd
    simp [Linear.fwd, relu]
  match v with
  | .basic => exact ⟨⟨⟨0, 0⟩, ⟨0, 0⟩, ⟨⟨0, 0⟩, ⟨0, 0⟩, ⟨0, 0⟩⟩⟩, fun _ x2 x3 => key _ _ x2 x3⟩
  | .conv => exact ⟨⟨⟨0, 0⟩, ⟨0, 0⟩, ⟨⟨0, 0⟩, ⟨0, 0⟩, ⟨0, 0⟩⟩⟩, fun _ x2 x3 => key _ _ x2 x3⟩
  | .ordered => exact ⟨⟨⟨0, 0⟩, ⟨0, 0⟩, ⟨⟨0, 0⟩, ⟨0, 0⟩, ⟨0, 0⟩⟩⟩, fun _ x2 x3 => key _ _ x2 x3⟩

/-- the input with the token at one position of one sample replaced -/
def Input.replace {v : Variant} {h : HeadName} {B : ℕ} (X : Input v h B) (b₀ : Fin B) (t₀ : Fin 150) (u : BitVec 64) : Input v h B :=
  { X with tokens := Function.update X.tokens b₀ (Function.update (X.tokens b₀) t₀ u) }

/-- an input that does not raise for any tables: known types, masks that allow something -/
structure Input.Good {v : Variant} {h : HeadName} {B : ℕ} (X : Input v h B) : Prop where
  types : ∀ b t, TypeOk (X.tokens b t)
  binary : ∀ b a, X.mask b a = 0 ∨ X.mask b a = 1
  allows : ∀ b, ∃ a, X.mask b a ≠ 0

/-- the logits tell two embeddings apart if they differ in one number -/
theorem separates_of {v : Variant} (gelu : ℝ → ℝ) (nEnc : ℕ) {nDec : ℕ} (hn : 0 < nDec) {h : HeadName} {B : ℕ} (X : Input v h B)
    (hX : X.Good) (b₀ : Fin B) (t₀ : Fin 150) (a : Fin (actionDim h)) (ha : X.mask b₀ a ≠ 0) (T : Tables (Fin embdSize → ℝ))
    (hT : FixedTables T) (u : BitVec 64) {x x' : Fin embdSize → ℝ}
    (hx : embed v T (X.player b₀) t₀.val (X.tokens b₀ t₀) = .ok x) (hx' : embed v T (X.player b₀) t₀.val u = .ok x') (c : Fin embdSize)
    (hne : x c ≠ x' c) :
    ∃ (p : Params v) (o o' : Output h B), p.encoder.length = nEnc ∧ p.decoder.length = nDec ∧ FixedTables p.tables ∧
      run gelu p X = .ok o ∧ run gelu p (X.replace b₀ t₀ u) = .ok o' ∧ o.logits b₀ a ≠ o'.logits b₀ a := by
  have hE : ∀ b t, ∃ x, embed v T (X.player b) t.val (X.tokens b t) = .ok x := fun b t => embed_total v T _ t.val t.isLt _ (hX.types b t)
  choose E hE using hE
  have h0 : E b₀ t₀ = x := by
    have := hE b₀ t₀
    rw [hx] at this
    exact (Except.ok.inj this).symm
  let E' : T3 B 150 embdSize := Function.update E b₀ (Function.update (E b₀) t₀ x')
  have hE' : ∀ b (t : Fin 150), embed v T (X.player b) t.val ((X.replace b₀ t₀ u).tokens b t) = .ok (E' b t) := by
    intro b t
    unfold Input.replace
    dsimp only [E']
    by_cases h2 : b = b₀
    · subst h2
      rw [Function.update_self, Function.update_self]
      by_cases h1 : t = t₀
      · subst h1
        rw [Function.update_self, Function.update_self, hx']
      · rw [Function.update_of_ne h1, Function.update_of_ne h1, hE b t]
    · rw [Function.update_of_ne h2, Function.update_of_ne h2, hE b t]
  have hsum : ∑ t, E b₀ t c ≠ ∑ t, E' b₀ t c := by
    intro h1
    rw [← Finset.add_sum_erase _ _ (Finset.mem_univ t₀), ← Finset.add_sum_erase _ (fun t => E' b₀ t c) (Finset.mem_univ t₀)] at h1
    have h2 : ∑ t ∈ Finset.univ.erase t₀, E b₀ t c = ∑ t ∈ Finset.univ.erase t₀, E' b₀ t c := by
      refine Finset.sum_congr rfl fun t ht => ?_
      simp only [E', Function.update_self, Function.update_of_ne (Finset.ne_of_mem_erase ht)]
    rw [h2, h0] at h1
    simp only [E', Function.update_self] at h1
    exact hne (by linarith)
  obtain ⟨s, hs⟩ := state_zero v
  let p : Params v := ⟨T, List.replicate nEnc zEnc, s, decList nDec 0 (reader c (-((∑ t, E b₀ t c) / 150)) 0), readLN,
    fun h' => if hh : h' = h then hh ▸ pt a c 1 0 else ⟨0, 0⟩⟩
  have hh : p.heads h = pt a c 1 0 := by simp [p]
  have hD : (∑ t, E' b₀ t c) / 150 + -((∑ t, E b₀ t c) / 150) ≠ 0 := fun h1 => hsum (by linarith)
  have raw : ∀ (Y : Input v h B) (F : T3 B 150 embdSize), rawLogits gelu p Y F b₀ a =
      normz (single c ((∑ t, F b₀ t c) / 150 + -((∑ t, E b₀ t c) / 150))) c := by
    intro Y F
    unfold rawLogits
    rw [hh, dec_row, enc_row, pt_fwd]
    dsimp only [p]
    rw [hs, decList_fold, reader_step, zEnc_fold]
    unfold readLN
    rw [norm_fwd]
    simp
  have run_of : ∀ (Y : Input v h B) (F : T3 B 150 embdSize), (∀ b t, embed v T (Y.player b) t.val (Y.tokens b t) = .ok (F b t)) →
      Y.mask = X.mask → ∃ o, run gelu p Y = .ok o ∧ o.logits b₀ a = rawLogits gelu p Y F b₀ a := by
    intro Y F hF hm
    have e1 : (fun b (t : Fin 150) => ((embed v p.tables (Y.player b) t.val (Y.tokens b t)).toOption).getD 0) = F := by
      funext b t
      rw [show p.tables = T from rfl, hF b t]
      rfl
    refine ⟨⟨fun b => maskedLogits (Y.mask b) (rawLogits gelu p Y F b),
      (∑ b, crossEntropy (maskedLogits (Y.mask b) (rawLogits gelu p Y F b)) (Y.y b)) / B⟩,
      run_ok.2 ⟨fun b t => ⟨F b t, hF b t⟩, fun b a => by rw [hm]; exact hX.binary b a, fun b => by rw [hm]; exact hX.allows b, by rw [e1], rfl⟩, ?_⟩
    unfold maskedLogits
    dsimp only
    rw [hm, if_neg ha]
  obtain ⟨o, ho, h1⟩ := run_of X E hE rfl
  obtain ⟨o', ho', h2⟩ := run_of (X.replace b₀ t₀ u) E' hE' rfl
  refine ⟨p, o, o', by simp [p], decList_length hn _, hT, ho, ho', ?_⟩
  rw [h1, h2, raw, raw, add_neg_cancel, single_zero, normz_zero]
  exact (normz_single_ne hD).symm

/-- C173: and there are parameters, with any number of blocks, for which replacing one event by one that looks different changes the
logits. -/
theorem C173_separates {v : Variant} (hv : v ≠ .ordered) (gelu : ℝ → ℝ) (nEnc : ℕ) {nDec : ℕ} (hn : 0 < nDec) {h : HeadName} {B : ℕ}
    (X : Input v h B) (hX : X.Good) (b₀ : Fin B) (t₀ : Fin 150) (a : Fin (actionDim h)) (ha : X.mask b₀ a ≠ 0) {e e' : TokenEvent} (hr : e.Real) (hr' : e'.Real) {n n' : Nat}
    (he : e.token = .ok n) (he' : e'.token = .ok n') (ht : X.tokens b₀ t₀ = BitVec.ofNat 64 n) (hl : e.look ≠ e'.look) :
    ∃ (p : Params v) (o o' : Output h B), p.encoder.length = nEnc ∧ p.decoder.length = nDec ∧ FixedTables p.tables ∧
      run gelu p X = .ok o ∧
      run gelu p (X.replace b₀ t₀ (BitVec.ofNat 64 n')) = .ok o' ∧ o.logits b₀ a ≠ o'.logits b₀ a := by
  have hb : ∀ (u : BitVec 64), embed v looksTables (X.player b₀) t₀.val u = embedBasic looksTables t₀.val u := by
    intro u
    cases v
    · rfl
    · rfl
    · exact absurd rfl hv
  refine separates_of gelu nEnc hn X hX b₀ t₀ a ha looksTables ⟨rfl, fun _ _ => rfl, fun _ _ => rfl⟩ _
    (by rw [hb, ht]; exact C173_embedding _ _ t₀.isLt e hr n he) (by rw [hb]; exact C173_embedding _ _ t₀.isLt e' hr' n' he') 1 ?_
  intro h1
  simp only [looks_embedding, add_left_inj, Int.cast_inj] at h1
  refine hl ((C173_exact e e' hr hr' he he' t₀.isLt).2 ?_)
  rw [C173_embedding _ _ t₀.isLt e hr n he, C173_embedding _ _ t₀.isLt e' hr' n' he', h1]

/-! ### the ordered network -/

/-- the parts of an event but the player, each in digits of its own -/
def restTables : Tables Int :=
  { empty := 0, position := fun _ => 0, player := fun _ => 0
    post_naki := fun i => i * 10
    during_naki := fun i => i * 10000
    tsumogiri := fun i => i * 10000000
    tile := fun i => (i + 1) * 100000000
    type := fun i => i * 10000000000 }

/-- the number of a player as seen by the viewing player -/
def seen (pl : Int) (p : Nat) : Nat := (((p : Int) - pl) % 4).toNat

theorem seen_lt (pl : Int) (p : Nat) : seen pl p < 4 := by unfold seen; omega

theorem seen_inj (pl : Int) {p p' : Nat} (hp : p < 4) (hp' : p' < 4) (h : seen pl p = seen pl p') : p = p' := by unfold seen at h; omega

/-- the player codes in the first two coordinates -/
def quarter (c r : Nat) : Int := if c = 0 then (if r = 1 then 1 else if r = 3 then -1 else 0) else (if r = 0 then 1 else if r = 2 then -1 else 0)

theorem player_quarter (c r : Nat) (hc : c < 2) (hr : r < 4) : playerTable embdSize r c = (quarter c r : ℝ) := by
  have e3 : (3 : ℝ) * (2 * Real.pi) / 4 = Real.pi + Real.pi / 2 := by ring
  have e2 : (2 : ℝ) * (2 * Real.pi) / 4 = Real.pi := by ring
  have e1 : (1 : ℝ) * (2 * Real.pi) / 4 = Real.pi / 2 := by ring
  rcases (by omega : c = 0 ∨ c = 1) with rfl | rfl <;>
    rcases (by omega : r = 0 ∨ r = 1 ∨ r = 2 ∨ r = 3) with rfl | rfl | rfl | rfl <;>
    simp only [playerTable, quarter, Nat.cast_zero, Nat.cast_one, Nat.cast_ofNat, zero_div, Real.rpow_zero, div_one, e1, e2, e3,
      Nat.sub_self] <;> simp [Real.sin_add, Real.cos_add]

/-- real tables with the fixed rows -/
noncomputable def orderedTables : Tables (Fin embdSize → ℝ) :=
  { empty := 0
    position := fun i j => positionTable embdSize i j
    player := fun i j => playerTable embdSize i j
    type := fun i _ => (restTables.type i : ℝ)
    tile := fun i _ => (restTables.tile i : ℝ)
    tsumogiri := fun i _ => (restTables.tsumogiri i : ℝ)
    during_naki := fun i _ => (restTables.during_naki i : ℝ)
    post_naki := fun i _ => (restTables.post_naki i : ℝ) }

/-- the number of an event without its player -/
def restCode (s y n : Nat) : Int :=
  ((y - 1 : Nat) : Int) * 10000000000 + (if s = 1 ∨ s = 4 then ((min (n % 128) 36 : Nat) + 1 : Int) * 100000000 else 0) +
    (if s = 1 then ((n / 128 : Nat) : Int) * 10000000 else 0) + (if s = 2 ∧ 3 ≤ n then ((min n 70 : Nat) : Int) * 10000 else 0) +
    (if s = 3 ∧ 2 ≤ n then ((min n 153 : Nat) : Int) * 10 else 0)

theorem ordered_embedding (pl : Int) {s y p n pos c : Nat} (hs : 1 ≤ s) (hs4 : s ≤ 4) (hy : y ≤ 4) (hp : p < 4) (hn : n < 256) (hc : c < 2) (hpos : pos < 150) :
    ∃ x, embedOrdered orderedTables pl pos (BitVec.ofNat 64 (s * 8192 + y * 1024 + p * 256 + n)) = .ok x ∧
      x ⟨c, by unfold embdSize; omega⟩ = (restCode s y n + (if s ≤ 3 then quarter c (seen pl p) else 0) : ℤ) + positionTable embdSize pos c := by
  have t1 := tokenFields_parts s y p n (by omega) (by omega) hp hn
  refine ⟨_, embedOrdered_eq _ pl pos _ hpos (by rw [t1]; exact hy), ?_⟩
  rw [t1]
  dsimp only
  have hq := player_quarter c (seen pl p) hc (seen_lt pl p)
  rw [show (((p : Int) - pl) % 4).toNat = seen pl p from rfl]
  unfold restCode
  rcases (by omega : s = 1 ∨ s = 2 ∨ s = 3 ∨ s = 4) with rfl | rfl | rfl | rfl
  · generalize min (n % 128) 36 = m
    by_cases h1 : n / 128 = 0
    · simp [masked, orderedTables, restTables, hq, h1]
      try ring
    · generalize n / 128 = d at *
      simp [masked, orderedTables, restTables, hq, h1]
      ring
  · generalize min n 70 = m
    by_cases h1 : 3 ≤ n
    · simp [masked, orderedTables, restTables, hq, h1]
      try ring
    · simp [masked, orderedTables, restTables, hq, h1]
      try ring
  · generalize min n 153 = m
    by_cases h1 : 2 ≤ n
    · simp [masked, orderedTables, restTables, hq, h1]
      try ring
    · simp [masked, orderedTables, restTables, hq, h1]
      try ring
  · generalize min (n % 128) 36 = m
    simp [masked, orderedTables, restTables]
    try ring

/-- different tokens differ in the number of the event or in the code of the player -/
theorem parts_differ (pl : Int) {s y p k s' y' p' k' : Nat} (hp : p < 4) (hp' : p' < 4)
    (hf : (s = 1 ∧ y = 2 ∧ k % 128 < 37) ∨ (s = 2 ∧ y = 2 ∧ 3 ≤ k ∧ k ≤ 70) ∨ (s = 3 ∧ y = 2 ∧ 2 ≤ k ∧ k ≤ 153) ∨
       (s = 2 ∧ y = 3 ∧ k = 2) ∨ (s = 4 ∧ y = 4 ∧ p = 0 ∧ k < 37))
    (hf' : (s' = 1 ∧ y' = 2 ∧ k' % 128 < 37) ∨ (s' = 2 ∧ y' = 2 ∧ 3 ≤ k' ∧ k' ≤ 70) ∨ (s' = 3 ∧ y' = 2 ∧ 2 ≤ k' ∧ k' ≤ 153) ∨
       (s' = 2 ∧ y' = 3 ∧ k' = 2) ∨ (s' = 4 ∧ y' = 4 ∧ p' = 0 ∧ k' < 37)) (hk : k < 256) (hk' : k' < 256)
    (hl : s * 8192 + y * 1024 + p * 256 + k ≠ s' * 8192 + y' * 1024 + p' * 256 + k') :
    ∃ c < 2, restCode s y k + (if s ≤ 3 then quarter c (seen pl p) else 0) ≠ restCode s' y' k' + (if s' ≤ 3 then quarter c (seen pl p') else 0) := by
  by_contra hall
  push Not at hall
  have h0 := hall 0 (by omega)
  have h1 := hall 1 (by omega)
  have b : ∀ c p, -1 ≤ quarter c p ∧ quarter c p ≤ 1 := by
    intro c p
    unfold quarter
    split <;> split <;> (try split) <;> omega
  have i : ∀ p < 4, ∀ p' < 4, quarter 0 p = quarter 0 p' → quarter 1 p = quarter 1 p' → p = p' := by decide
  have b1 := b 0 (seen pl p)
  have b2 := b 1 (seen pl p)
  have b3 := b 0 (seen pl p')
  have b4 := b 1 (seen pl p')
  have i1 := fun h0 h1 => seen_inj pl hp hp' (i _ (seen_lt pl p) _ (seen_lt pl p') h0 h1)
  unfold restCode at h0 h1
  generalize quarter 0 (seen pl p) = q0 at *
  generalize quarter 1 (seen pl p) = q1 at *
  generalize quarter 0 (seen pl p') = q0' at *
  generalize quarter 1 (seen pl p') = q1' at *
  clear hall i b
  rcases hf with ⟨rfl, rfl, hb⟩ | ⟨rfl, rfl, hb, hc⟩ | ⟨rfl, rfl, hb, hc⟩ | ⟨rfl, rfl, rfl⟩ | ⟨rfl, rfl, rfl, hb⟩ <;>
    rcases hf' with ⟨rfl, rfl, hb'⟩ | ⟨rfl, rfl, hb', hc'⟩ | ⟨rfl, rfl, hb', hc'⟩ | ⟨rfl, rfl, rfl⟩ | ⟨rfl, rfl, rfl, hb'⟩ <;>
    simp [*] at h0 h1 <;> omega

/-- C174: in the ordered network there are parameters, with any number of blocks and with the fixed codes of positions and players, for
which replacing one event by any other changes the logit of any given allowed action, whatever the rest of the batch is. -/
theorem C174_separates (gelu : ℝ → ℝ) (nEnc : ℕ) {nDec : ℕ} (hn : 0 < nDec) {h : HeadName} {B : ℕ}
    (X : Input .ordered h B) (hX : X.Good) (b₀ : Fin B) (t₀ : Fin 150) (a : Fin (actionDim h)) (ha : X.mask b₀ a ≠ 0) {e e' : TokenEvent} (hr : e.Real) (hr' : e'.Real) {n n' : Nat}
    (he : e.token = .ok n) (he' : e'.token = .ok n') (ht : X.tokens b₀ t₀ = BitVec.ofNat 64 n) (hl : n ≠ n') :
    ∃ (p : Params .ordered) (o o' : Output h B), p.encoder.length = nEnc ∧ p.decoder.length = nDec ∧
      FixedTables p.tables ∧ run gelu p X = .ok o ∧
      run gelu p (X.replace b₀ t₀ (BitVec.ofNat 64 n')) = .ok o' ∧ o.logits b₀ a ≠ o'.logits b₀ a := by
  obtain ⟨s, y, p, k, rfl, hp, hk, hf⟩ := token_form_real e hr n he
  obtain ⟨s', y', p', k', rfl, hp', hk', hf'⟩ := token_form_real e' hr' n' he'
  have key := parts_differ (X.player b₀) hp hp' hf hf' hk hk' hl
  obtain ⟨c, hc, hne⟩ := key
  obtain ⟨x, hx, hxc⟩ := ordered_embedding (X.player b₀) (s := s) (y := y) (p := p) (n := k) (c := c) (by omega) (by omega) (by omega) hp hk hc t₀.isLt
  obtain ⟨x', hx', hxc'⟩ := ordered_embedding (X.player b₀) (s := s') (y := y') (p := p') (n := k') (c := c) (by omega) (by omega) (by omega) hp' hk' hc t₀.isLt
  refine separates_of gelu nEnc hn X hX b₀ t₀ a ha orderedTables ⟨rfl, fun _ _ => rfl, fun _ _ => rfl⟩ _
    (by rw [ht]; exact hx) hx' ⟨c, by unfold embdSize; omega⟩ ?_
  rw [hxc, hxc']
  intro h1
  exact hne (by exact_mod_cast add_right_cancel h1)

/-- C174: and the same for replacing an event by padding. -/
theorem C174_padding (gelu : ℝ → ℝ) (nEnc : ℕ) {nDec : ℕ} (hn : 0 < nDec) {h : HeadName} {B : ℕ}
    (X : Input .ordered h B) (hX : X.Good) (b₀ : Fin B) (t₀ : Fin 150) (a : Fin (actionDim h)) (ha : X.mask b₀ a ≠ 0) {e : TokenEvent} (hr : e.Real) {n : Nat}
    (he : e.token = .ok n) (ht : X.tokens b₀ t₀ = BitVec.ofNat 64 n) :
    ∃ (p : Params .ordered) (o o' : Output h B), p.encoder.length = nEnc ∧ p.decoder.length = nDec ∧
      FixedTables p.tables ∧ run gelu p X = .ok o ∧
      run gelu p (X.replace b₀ t₀ (BitVec.ofNat 64 padId)) = .ok o' ∧ o.logits b₀ a ≠ o'.logits b₀ a := by
  obtain ⟨s, y, p, k, rfl, hp, hk, hf⟩ := token_form_real e hr n he
  obtain ⟨x, hx, hxc⟩ := ordered_embedding (X.player b₀) (s := s) (y := y) (p := p) (n := k) (c := 0) (by omega) (by omega) (by omega) hp hk (by omega) t₀.isLt
  refine separates_of gelu nEnc hn X hX b₀ t₀ a ha orderedTables ⟨rfl, fun _ _ => rfl, fun _ _ => rfl⟩ _
    (by rw [ht]; exact hx) (C69_padding_zero (add_zero 0) orderedTables rfl (X.player b₀) _ t₀.isLt) ⟨0, by unfold embdSize; omega⟩ ?_
  rw [hxc]
  have h1 : (2 : Int) ≤ restCode s y k + (if s ≤ 3 then quarter 0 (seen (X.player b₀) p) else 0) := by
    have b : -1 ≤ quarter 0 (seen (X.player b₀) p) := by
      unfold quarter
      split <;> split <;> (try split) <;> omega
    have hy : 2 ≤ y := by omega
    unfold restCode
    split <;> split <;> split <;> split <;> split <;> omega
  have h2 : (2 : ℝ) ≤ ((restCode s y k + (if s ≤ 3 then quarter 0 (seen (X.player b₀) p) else 0) : ℤ) : ℝ) := by exact_mod_cast h1
  have h3 : -1 ≤ positionTable embdSize t₀.val 0 := by
    unfold positionTable
    split
    · exact Real.neg_one_le_sin _
    · exact Real.neg_one_le_cos _
  intro h4
  simp only [Pi.zero_apply] at h4
  linarith

/-- a pon of the one of characters by the first player and a pon of red dragons by the second -/
example : LooksSame (BitVec.ofNat 64 0x6853) (BitVec.ofNat 64 0x6977) := by
  refine .inr ⟨.naki 0 0x0009, .naki 1 0xC609, 0x6853, 0x6977, ⟨trivial, ?_⟩, ⟨trivial, ?_⟩, by decide, by decide, rfl, rfl, by decide⟩
  all_goals
    intro w c h
    simp only [TokenEvent.naki.injEq] at h
    rw [← h.2]
    refine ⟨by decide, ?_⟩
  · rw [show Spec.meldType 0x0009 = some .pon by decide]
    decide
  · rw [show Spec.meldType 0xC609 = some .pon by decide]
    decide

end MJ.Net
