import Verif.Proofs.Suits
import Verif.Props.RoundSeats
import Verif.Props.RoundOffers
/-!
C153: the three suits are treated alike.  Exchanging them in a log exchanges them in the recorded decisions, tokens and
samples — except that the offers of added kans look up the number of a kind in a table of tiles.
-/
namespace MJ
open Code Spec Spec.Suits

/-! ### melds of the log -/

theorem meldType_encode (m : LogMeld) (hv : m.Valid) : meldType m.encode = some m.type := by
  obtain ⟨_, ⟨a1, a2, a3, a4, a5⟩, _⟩ := C93_tiles m hv
  rw [meldType_eq, a1, a2, a3, a4, a5]
  cases m.type <;> rfl

theorem suits_valid {σ : Suits} (hσ : σ.Proper) (m : LogMeld) (hv : m.Valid) : (m.suits σ).Valid := by
  cases m with
  | chi src k x y z w =>
    obtain ⟨h1, h2, h3, h4⟩ := hv
    have := (slot_split (σ := σ) (k := k) h2).1
    exact ⟨h1, (slot_lt27 hσ).2 h2, by omega, h4⟩
  | pon src k u w => exact ⟨hv.1, (slot_lt34 hσ).2 hv.2.1, hv.2.2⟩
  | kakan src k u w => exact ⟨hv.1, (slot_lt34 hσ).2 hv.2.1, hv.2.2⟩
  | minkan src t => exact ⟨hv.1, hv.2.1, (tile_lt hσ).2 hv.2.2⟩
  | ankan t => exact (tile_lt hσ).2 hv

theorem tile_mod (σ : Suits) (t : Nat) : σ.tile t % 4 = t % 4 := by
  unfold Suits.tile
  split
  · omega
  · split <;> omega

/-- the map on codes exchanges the suits of the melds they encode -/
theorem code_encode {σ : Suits} (hσ : σ.Proper) (m : LogMeld) (hv : m.Valid) : σ.code m.encode = (m.suits σ).encode := by
  have ht := meldType_encode m hv
  unfold Suits.code
  rw [ht]
  cases m with
  | chi src k x y z w =>
    obtain ⟨h1, h2, h3, h4, h5, h6, h7⟩ := hv
    obtain ⟨e1, e2⟩ := slot_split (σ := σ) (k := k) h2
    simp only [LogMeld.type, LogMeld.suits, LogMeld.encode, e1, e2]
    generalize hP : (k / 9 * 7 + k % 9) * 3 + w = P
    have a1 : P / 21 = k / 9 := by omega
    have a2 : P % 21 = k % 9 * 3 + w := by omega
    have a3 : (src + 4 + 8 * x + 32 * y + 128 * z + 1024 * P) / 1024 = P := by omega
    have a4 : (src + 4 + 8 * x + 32 * y + 128 * z + 1024 * P) % 1024 = src + 4 + 8 * x + 32 * y + 128 * z := by omega
    rw [a3, a4, a1, a2]
    generalize σ.on (k / 9) = b
    omega
  | pon src k u w =>
    obtain ⟨h1, h2, h3, h4⟩ := hv
    simp only [LogMeld.type, LogMeld.suits, LogMeld.encode]
    have a3 : (src + 8 + 32 * u + 512 * (k * 3 + w)) / 512 = k * 3 + w := by omega
    have a4 : (src + 8 + 32 * u + 512 * (k * 3 + w)) % 512 = src + 8 + 32 * u := by omega
    rw [a3, a4, show (k * 3 + w) / 3 = k by omega, show (k * 3 + w) % 3 = w by omega]
    generalize σ.slot k = b
    omega
  | kakan src k u w =>
    obtain ⟨h1, h2, h3, h4⟩ := hv
    simp only [LogMeld.type, LogMeld.suits, LogMeld.encode]
    have a3 : (src + 16 + 32 * u + 512 * (k * 3 + w)) / 512 = k * 3 + w := by omega
    have a4 : (src + 16 + 32 * u + 512 * (k * 3 + w)) % 512 = src + 16 + 32 * u := by omega
    rw [a3, a4, show (k * 3 + w) / 3 = k by omega, show (k * 3 + w) % 3 = w by omega]
    generalize σ.slot k = b
    omega
  | minkan src t =>
    obtain ⟨h0, h1, h2⟩ := hv
    simp only [LogMeld.type, LogMeld.suits, LogMeld.encode]
    have a1 := tile_kind (σ := σ) h2
    have a2 := tile_mod σ t
    rw [show (src + 256 * t) / 256 = t by omega, show (src + 256 * t) % 256 = src by omega, ← a1]
    generalize σ.tile t = b at a2
    omega
  | ankan t =>
    have h2 : t < 136 := hv
    simp only [LogMeld.type, LogMeld.suits, LogMeld.encode]
    have a1 := tile_kind (σ := σ) h2
    have a2 := tile_mod σ t
    rw [show 256 * t / 256 = t by omega, show 256 * t % 256 = 0 by omega, ← a1]
    generalize σ.tile t = b at a2
    omega

/-! ### samples -/

theorem plane_suits {σ : Suits} (hσ : σ.Proper) {f f' : Nat → Int} (h : SlotsMoved σ f f') (v : Variant) :
    (plane v f).length = 37 ∧ (plane v f').length = 37 ∧ ∀ k < 37, (plane v f')[σ.slot k]? = (plane v f)[k]? := by
  refine ⟨by simp [plane], by simp [plane], fun k hk => ?_⟩
  have hk' := (slot_lt37 hσ).2 hk
  simp only [plane, List.getElem?_map, List.getElem?_range hk, List.getElem?_range hk', Option.map_some]
  cases v <;> simp only [h k]

theorem npRoll_map {α β : Type} (f : α → β) (l : List α) (k : Int) : npRoll (l.map f) k = (npRoll l k).map f := by
  simp only [npRoll, List.length_map, List.map_append, List.map_take, List.map_drop]

theorem pairs_map {α β γ : Type} {R : α → β → Prop} {f : γ → α} {g : γ → β} (h : ∀ x, R (f x) (g x)) : ∀ l : List γ,
    AllPairs R (l.map f) (l.map g)
  | [] => .nil
  | x :: l => .cons (h x) (pairs_map h l)

theorem ObjSuits.x1 {Q : Prop} {σ : Suits} (hσ : σ.Proper) {o o' : StateObj} (ho : ObjSuits σ o o') {s s' : RoundSt}
    (h : StSuits Q σ s s') (v : Variant) :
    AllPairs (fun P P' => P.length = 37 ∧ P'.length = 37 ∧ ∀ k < 37, P'[σ.slot k]? = P[k]?) (stateX1 v o s) (stateX1 v o' s') := by
  have e1 : SlotsMoved σ (o.hand_tensor s) (o'.hand_tensor s') := by
    intro k
    simp only [StateObj.hand_tensor, ho.player, h.hand_tensors _ k]
  have e2 : SlotsMoved σ (o.remaining_tiles_pov s) (o'.remaining_tiles_pov s') := by
    intro k
    simp only [StateObj.remaining_tiles_pov, ho.player, h.pov _ k]
  cases v
  case ordered =>
    simp only [stateX1]
    rw [ho.player, npRoll_map, npRoll_map, List.map_map, List.map_map]
    refine .cons (plane_suits hσ e1 _) (.cons (plane_suits hσ e2 _) ?_)
    show AllPairs _ (List.map _ _) (List.map _ _)
    refine pairs_map ?_ _
    intro p
    exact plane_suits hσ (ho.sutehai p) _
  all_goals
    simp only [stateX1]
    rw [ho.player]
    exact .cons (plane_suits hσ e1 _) (.cons (plane_suits hσ e2 _) (.cons (plane_suits hσ (ho.sutehai _) _) .nil))

theorem tokens_suits {σ : Suits} {l l' : List Nat} (h : AllPairs (TokenSuits σ) l l') {e : Nat} {row row' : List Nat}
    (hr : TokensUpTo l e row) (hr' : TokensUpTo l' e row') :
    AllPairs (fun t t' => (t = 0 ∧ t' = 0) ∨ TokenSuits σ t t') row row' := by
  refine .of_get (hr.1.trans hr'.1.symm) ?_
  intro i x y hx hy
  have hi : i < 150 := by
    have := (List.getElem?_eq_some_iff.1 hx).1
    rw [hr.1] at this; exact this
  rw [hr.2 i hi] at hx
  rw [hr'.2 i hi] at hy
  simp only [Option.some.injEq] at hx hy
  subst hx; subst hy
  split
  · simp only [List.getD_eq_getElem?_getD]
    by_cases hl : i < l.length
    · have hl' : i < l'.length := by rw [← h.length]; exact hl
      rw [List.getElem?_eq_getElem hl, List.getElem?_eq_getElem hl']
      exact .inr (h.get i (List.getElem?_eq_getElem hl) (List.getElem?_eq_getElem hl'))
    · rw [List.getElem?_eq_none (by omega), List.getElem?_eq_none (by rw [← h.length]; omega)]
      exact .inl ⟨rfl, rfl⟩
  · exact .inl ⟨rfl, rfl⟩

theorem StSuits.base {Q : Prop} {σ : Suits} (hσ : σ.Proper) {s s' : RoundSt} (h : StSuits Q σ s s') {v : Variant} {o o' : StateObj}
    (ho : ObjSuits σ o o') {e q : Nat} {row row' : Row} (hb : RowBase v s s.encoding_tokens o e q row)
    (hb' : RowBase v s' s'.encoding_tokens o' e q row') : RowSuits σ row row' := by
  obtain ⟨_, h2, h3, h4, h5, h6⟩ := hb
  obtain ⟨_, k2, k3, k4, k5, k6⟩ := hb'
  refine ⟨by rw [k6, h6], tokens_suits h.tokens h2 k2, ?_, ?_, ?_⟩
  · rw [h3, k3]
    exact ho.x1 hσ h v
  · have : stateX2 o' s' = stateX2 o s := by
      simp only [stateX2, StateObj.is_menzen, h.menzen, ho.scores, ho.parent_rounds, ho.parent, ho.double, ho.reaches, ho.ippatsu]
    rw [this, h4] at k4
    exact (Except.ok.inj k4).symm
  · rw [k5, h5]
    simp only [stateX3, ho.tsumo, ho.kyotaku, ho.honba, ho.rounds]

theorem ankan_action {k : Nat} (hk : k < 34) : get_during_turn_filter_idx (ankanInfo k) = .ok (3 + k) := by
  have : ∀ k < 34, get_during_turn_filter_idx (ankanInfo k) = .ok (3 + k) := by decide +kernel
  exact this k hk

theorem kakan_action {k : Nat} (hk : k < 34) : get_during_turn_filter_idx (kakanInfo k 0) = .ok (37 + k) := by
  have : ∀ k < 34, get_during_turn_filter_idx (kakanInfo k 0) = .ok (37 + k) := by decide +kernel
  exact this k hk

/-- the action number of an offered kan -/
def HasNumber (d : NakiDecision) (i : Nat) : Prop := get_during_turn_filter_idx d.naki.naki_code = .ok i

theorem HasNumber.action {d : NakiDecision} {i : Nat} (h : HasNumber d i) (j : Int) : ownAction d j ↔ j = (i : Int) := by
  unfold ownAction
  unfold HasNumber at h
  rw [h]
  simp only [Except.ok.injEq]
  exact ⟨fun ⟨x, e1, e2⟩ => by rw [e2, ← e1], fun e => ⟨_, rfl, e⟩⟩

theorem own_lt {σ : Suits} (hσ : σ.Proper) {i : Nat} (hi : i < 71) : σ.own i < 71 := by
  unfold Suits.own
  split
  · exact hi
  · split
    · have := (slot_lt34 hσ (k := i - 3)).2 (by omega)
      omega
    · have := (slot_lt34 hσ (k := i - 37)).2 (by omega)
      omega

theorem own_inj {σ : Suits} (hσ : σ.Proper) {i j : Nat} : σ.own i = σ.own j ↔ i = j := by
  constructor
  · intro e
    have a1 := slot_lt34 hσ (k := i - 3)
    have a2 := slot_lt34 hσ (k := i - 37)
    have b1 := slot_lt34 hσ (k := j - 3)
    have b2 := slot_lt34 hσ (k := j - 37)
    have c1 := slot_inj hσ (a := i - 3) (b := j - 3)
    have c2 := slot_inj hσ (a := i - 37) (b := j - 37)
    unfold Suits.own at e
    generalize σ.slot (i - 3) = p at *
    generalize σ.slot (i - 37) = q at *
    generalize σ.slot (j - 3) = r at *
    generalize σ.slot (j - 37) = t at *
    split at e
    · split at e
      · exact e
      · split at e
        · omega
        · split at e <;> omega
    · split at e
      · split at e
        · omega
        · split at e
          · have := c1.1 (by omega); omega
          · split at e <;> omega
      · split at e
        · split at e
          · omega
          · split at e
            · omega
            · split at e
              · have := c2.1 (by omega); omega
              · omega
        · split at e
          · omega
          · split at e
            · omega
            · split at e <;> omega
  · rintro rfl; rfl

theorem own_row {Q : Prop} (hQ : Q) {σ : Suits} (hσ : σ.Proper) {a : List AgariDecision} {l : List ReachDecision} {n n' : List NakiDecision}
    (h : OwnSuits Q σ n n') :
    (n' = [] ↔ n = []) ∧
    (∀ m m', Allows 71 m (OwnAllowed a l n) → Allows 71 m' (OwnAllowed a l n') → ∀ i < 71, m'[σ.own i]? = m[i]?) ∧
    ∀ y y' : Int, LastExecuted ownAction n 2 y → LastExecuted ownAction n' 2 y' → ∃ i : Nat, y = i ∧ y' = σ.own i := by
  obtain ⟨A, K, A', K', rfl, rfl, g1, h2, h3, h4, h5⟩ := h
  obtain ⟨rfl, h6⟩ := h4 hQ
  have h1 : (A' ++ K.map σ.call).Perm ((A ++ K).map σ.call) := by
    rw [List.map_append]
    exact g1.append_right _
  have hcall : ∀ d ∈ A ++ K, ∃ i < 71, HasNumber d i ∧ HasNumber (σ.call d) (σ.own i) := by
    intro d hd
    rcases List.mem_append.1 hd with hd | hd
    · obtain ⟨k, hk, e⟩ := h3 d hd
      refine ⟨3 + k, by omega, ?_, ?_⟩
      · unfold HasNumber
        rw [e]
        exact ankan_action hk
      · have : σ.own (3 + k) = 3 + σ.slot k := by
          unfold Suits.own
          rw [if_neg (by omega), if_pos (by omega), show 3 + k - 3 = k by omega]
        unfold HasNumber
        simp only [Suits.call, e, Naki.from_ankan_info, raw_suits, ankanInfo_suits hσ (show k < 37 by omega), this]
        exact ankan_action ((slot_lt34 hσ).2 hk)
    · obtain ⟨k, hk, e⟩ := h6 d hd
      refine ⟨37 + k, by omega, ?_, ?_⟩
      · unfold HasNumber
        rw [e]
        exact kakan_action hk
      · have : σ.own (37 + k) = 37 + σ.slot k := by
          unfold Suits.own
          rw [if_neg (by omega), if_neg (by omega), if_pos (by omega), show 37 + k - 37 = k by omega]
        unfold HasNumber
        simp only [Suits.call, e, raw_suits, kakanInfo_suits hσ hk, this]
        exact kakan_action ((slot_lt34 hσ).2 hk)
  generalize A' ++ K.map σ.call = N' at *
  generalize A ++ K = N at *
  have hsmall : ∀ i, ∀ j < 3, (σ.own i = j ↔ i = j) := by
    intro i j hj
    have : σ.own j = j := by unfold Suits.own; rw [if_pos hj]
    have h' := own_inj hσ (i := i) (j := j)
    rwa [this] at h'
  refine ⟨?_, ?_, ?_⟩
  · constructor
    · intro e
      rw [e] at h1
      simpa using h1.nil_eq.symm
    · intro e
      rw [e] at h1
      exact h1.eq_nil
  · intro m m' hm hm' i hi
    have key : OwnAllowed a l N' (σ.own i) ↔ OwnAllowed a l N i := by
      unfold OwnAllowed
      rw [hsmall i 0 (by omega), hsmall i 1 (by omega), hsmall i 2 (by omega)]
      refine or_congr Iff.rfl (or_congr Iff.rfl (or_congr Iff.rfl ?_))
      constructor
      · rintro ⟨d, hd, hx⟩
        obtain ⟨d0, hd0, rfl⟩ := List.mem_map.1 (h1.mem_iff.1 hd)
        obtain ⟨k, hk, e1, e2⟩ := hcall d0 hd0
        refine ⟨d0, hd0, ?_⟩
        rw [e2.action] at hx
        rw [e1.action]
        have := (own_inj hσ).1 (Int.ofNat.inj hx)
        rw [this]
      · rintro ⟨d0, hd0, hx⟩
        obtain ⟨k, hk, e1, e2⟩ := hcall d0 hd0
        refine ⟨σ.call d0, h1.mem_iff.2 (List.mem_map_of_mem hd0), ?_⟩
        rw [e1.action] at hx
        rw [e2.action, Int.ofNat.inj hx]
    by_cases ha : OwnAllowed a l N i
    · rw [(hm.2.1 i ha).2, (hm'.2.1 _ (key.2 ha)).2]
    · rw [hm.2.2 i hi ha, hm'.2.2 _ (own_lt hσ hi) (fun e => ha (key.1 e))]
  · intro y y' hy hy'
    rcases hy with ⟨l1, d, l2, e1, e2, _, e4⟩ | ⟨e1, e2⟩
    · have hd : d ∈ N := by rw [e1]; simp
      obtain ⟨k, hk, f1, f2⟩ := hcall d hd
      rcases hy' with ⟨m1, d', m2, g1, g2, _, g4⟩ | ⟨g1, _⟩
      · have hd' : d' ∈ N' := by rw [g1]; simp
        obtain ⟨d0, hd0, rfl⟩ := List.mem_map.1 (h1.mem_iff.1 hd')
        have heq : d0 = d := by
          have m1 : d0 ∈ N.filter (·.executed) := List.mem_filter.2 ⟨hd0, g2⟩
          have m2 : d ∈ N.filter (·.executed) := List.mem_filter.2 ⟨hd, e2⟩
          rw [List.countP_eq_length_filter] at h5
          generalize N.filter (·.executed) = F at h5 m1 m2
          match F, h5 with
          | [], _ => simp at m1
          | [x], _ =>
            rw [List.mem_singleton] at m1 m2
            rw [m1, m2]
        subst heq
        rw [f1.action] at e4
        rw [f2.action] at g4
        exact ⟨k, e4, g4⟩
      · have := g1 (σ.call d) (h1.mem_iff.2 (List.mem_map_of_mem hd))
        have h' : (σ.call d).executed = d.executed := rfl
        rw [h', e2] at this
        simp at this
    · rcases hy' with ⟨m1, d', m2, g1, g2, _, g4⟩ | ⟨_, g2⟩
      · have hd' : d' ∈ N' := by rw [g1]; simp
        obtain ⟨d0, hd0, rfl⟩ := List.mem_map.1 (h1.mem_iff.1 hd')
        have := e1 d0 hd0
        have h' : (σ.call d0).executed = d0.executed := rfl
        rw [h', this] at g2
        simp at g2
      · exact ⟨2, e2, by rw [g2]; rfl⟩

theorem deciders_suits {σ : Suits} {q : Nat} {a a' : List (List AgariDecision)} {n n' : List (List NakiDecision)}
    (ha : ∀ p < 4, winsOf a' p = winsOf a p) (hn : ∀ p < 4, callsOf n' p = (callsOf n p).map σ.call) :
    deciders q a' n' = deciders q a n := by
  have hlt : ∀ p ∈ turnOrder q, p < 4 := by
    intro p hp
    simp only [turnOrder, List.mem_cons, List.not_mem_nil, or_false] at hp
    omega
  have hup : ∀ (f g : Nat → Bool) (l : List Nat), (∀ p ∈ l, g p = f p) → upTo g l = upTo f l := by
    intro f g l
    induction l with
    | nil => intro _; rfl
    | cons p l ih =>
      intro h
      simp only [upTo, h p (by simp), ih (fun q hq => h q (by simp [hq]))]
  unfold deciders
  have hf : (turnOrder q).filter (fun p => !(winsOf a' p).isEmpty || !(callsOf n' p).isEmpty) =
      (turnOrder q).filter (fun p => !(winsOf a p).isEmpty || !(callsOf n p).isEmpty) := by
    refine List.filter_congr (fun p hp => ?_)
    rw [ha p (hlt p hp), hn p (hlt p hp), List.isEmpty_map]
  rw [hf]
  refine hup _ _ _ (fun p hp => ?_)
  have hp4 := hlt p (List.mem_filter.1 hp).1
  rw [ha p hp4, hn p hp4, List.any_map]
  rfl

/-- the samples of a half-turn and of the half-turn with the suits exchanged -/
def RowsSuits (Q : Prop) (σ : Suits) : HalfTurn → List Row → List Row → Prop
  | .during .., rows, rows' => Q → AllPairs (OwnRowSuits σ) rows rows'
  | .discard .., rows, rows' => AllPairs (DiscardRowSuits σ) rows rows'
  | .post .., rows, rows' => AllPairs (CallRowSuits σ) rows rows'

/-- the codes of the calls offered on a discard -/
def OffersWf : HalfTurn → Prop
  | .post _ _ _ _ n => ∀ l ∈ n, ∀ d ∈ l, WellFormed d.naki.naki_code
  | _ => True

theorem chi_wf (r : Bool) : ∀ col < 3, ∀ n < 7, ∀ w < 3, r = false ∨ (2 ≤ n ∧ n ≤ 4) → WellFormed (chiInfo col n w r) := by
  cases r <;> decide +kernel

theorem pon_wf (r : Bool) : ∀ t < 34, ∀ w < 2, ∀ q < 4, WellFormed (ponInfo t w r q) := by
  cases r <;> decide +kernel

theorem minkan_wf : ∀ t < 34, ∀ w < 2, ∀ q < 4, q ≠ 0 → WellFormed (minkanInfo t q w) := by
  decide +kernel

theorem offered_wf {q p : Nat} {h : Hand} {t : Nat} {red : Bool} {c : Nat} (hq : q < 4) (hp : p < 4) (hne : p ≠ q) (ht : t < 34)
    (ho : Offered q p h t red c) : WellFormed c := by
  have hsrc : source q p < 4 ∧ source q p ≠ 0 := by unfold source; omega
  have red1 : red.toNat < 2 := by cases red <;> decide
  rcases ho with ⟨_, n, w, r, hc, rfl⟩ | ⟨w, r, hc, rfl⟩ | ⟨w, hc, rfl⟩
  · obtain ⟨h1, h2, h3, h4, _, h6, h5⟩ := hc
    refine chi_wf r _ (by omega) n h2 w ?_ ?_
    · rw [h5]
      split
      · omega
      · split <;> omega
    · split at h6
      · right; omega
      · split at h6
        · right; omega
        · exact .inl h6
  · refine pon_wf r t ht w ?_ _ hsrc.1
    unfold PonOffer at hc
    split at hc
    · split at hc
      · rcases hc with hc | hc <;> omega
      · rw [hc.2.1]; exact red1
    · omega
  · refine minkan_wf t ht w ?_ _ hsrc.1 hsrc.2
    rw [hc.2]
    split
    · exact red1
    · omega

theorem mask_wf {q : Nat} {hands : Nat → Hand} {t : Nat} {red : Bool} {ds : List (List NakiDecision)} (hq : q < 4) (ht : t < 34)
    (h : decisionMask q hands t red = .ok ds) : ∀ l ∈ ds, ∀ d ∈ l, WellFormed d.naki.naki_code := by
  obtain ⟨ds', e, hlen, hm⟩ := decisionMask_spec q hands t red ht hq
  rw [h] at e
  cases e
  intro l hl d hd
  obtain ⟨p, hp, rfl⟩ := List.mem_iff_getElem.1 hl
  have hp4 : p < 4 := by omega
  obtain ⟨l', h1, h2⟩ := hm p hp4
  rw [List.getElem?_eq_getElem hp, Option.some.injEq] at h1
  rw [h1] at hd
  obtain ⟨hne, c, hc, rfl⟩ := (h2 d).1 hd
  exact offered_wf hq hp4 hne ht hc

theorem wf_mark (k : Nat) (t : HalfTurn) (h : OffersWf t) : OffersWf (t.mark k) := by
  cases t with
  | during => trivial
  | discard => trivial
  | post p o e a n =>
    intro l hl d hd
    obtain ⟨l', hl', rfl⟩ := List.mem_map.1 hl
    obtain ⟨d', h1, h2⟩ := mem_markNaki hd
    rw [← h2]
    exact h l' hl' d' h1

theorem offersWf_reached {est : Estimate} {sh : List Int → Except PyErr Int} {g : GameInfo} {a : InitAttr}
    {c : RoundCfg} {s0 : RoundSt} (hi : initRound est sh g a = .ok (c, s0)) {acts : List Act} {s : RoundSt}
    (hr : Reached c s0 acts s) : ∀ h ∈ s.halfturns, OffersWf h := by
  obtain ⟨d0⟩ := initRound_ok hi
  refine hr.induct (P := fun _ s => ∀ h ∈ s.halfturns, OffersWf h) ?_ ?_
  · rw [congrArg RoundSt.halfturns d0.state_eq]; simp
  · intro acts s act s' hr ih he
    cases he with
    | dora => exact ih
    | @declare p i t h1 h2 h3 h4 h5 =>
      intro h hh
      rcases List.mem_or_eq_of_mem_set hh with hh | rfl
      · exact ih h hh
      · have := ih t (List.mem_of_getElem? h3)
        cases t <;> exact this
    | accept => exact ih
    | @draw p t _ hp e =>
      rw [e.state_eq]
      intro h hh
      rcases List.mem_append.1 hh with hh | hh
      · exact ih h hh
      · simp only [List.mem_singleton] at hh
        subst hh
        trivial
    | @discard p t _ hp e =>
      rw [e.state_eq]
      have := e.tile_lt
      intro h hh
      rcases List.mem_append.1 hh with hh | hh
      · exact ih h hh
      · simp only [List.mem_cons, List.not_mem_nil, or_false] at hh
        rcases hh with rfl | rfl
        · trivial
        · exact mask_wf hp (by omega) e.offers_eq
    | @call p code _ e =>
      rw [e.state_eq]
      intro h hh
      rcases List.mem_append.1 hh with hh | hh
      · rcases List.mem_or_eq_of_mem_set hh with hh | rfl
        · exact ih h hh
        · exact wf_mark _ _ (ih e.t (List.mem_of_getElem? e.turn_eq))
      · unfold chankanTurn at hh
        split at hh
        · simp only [List.mem_singleton] at hh
          subst hh
          intro l hl d hd
          simp only [List.mem_map] at hl
          obtain ⟨_, _, rfl⟩ := hl
          simp at hd
        · simp at hh

theorem StSuits.rows {Q : Prop} {σ : Suits} (hσ : σ.Proper) {s s' : RoundSt} (h : StSuits Q σ s s') {v : Variant} {t t' : HalfTurn}
    (ht : TurnSuits Q σ t t') (hw : OffersWf t) (hf : FourLists t) (hf' : FourLists t') {rows rows' : List Row}
    (hr : RowsOf v s s.encoding_tokens t rows) (hr' : RowsOf v s' s'.encoding_tokens t' rows') : RowsSuits Q σ t rows rows' := by
  cases ht with
  | @during q e o o' a l n n' ho hn =>
    intro hQ
    obtain ⟨o1, o2, o3⟩ := own_row (a := a) (l := l) hQ hσ hn
    simp only [RowsOf] at hr hr'
    by_cases hz : a = [] ∧ l = [] ∧ n = []
    · rw [if_pos hz] at hr
      rw [if_pos ⟨hz.1, hz.2.1, o1.2 hz.2.2⟩] at hr'
      rw [hr, hr']
      exact .nil
    · rw [if_neg hz] at hr
      rw [if_neg (fun e => hz ⟨e.1, e.2.1, o1.1 e.2.2⟩)] at hr'
      obtain ⟨row, rfl, h1, h2, h3⟩ := hr
      obtain ⟨row', rfl, h1', h2', h3'⟩ := hr'
      exact .cons ⟨h.base hσ ho h1 h1', o2 _ _ h2 h2', o3 _ _ h3 h3'⟩ .nil
  | @discard q e t o o' htl ho =>
    obtain ⟨row, rfl, h1, h2, _, h3⟩ := hr
    obtain ⟨row', rfl, h1', h2', _, h3'⟩ := hr'
    refine .cons ⟨h.base hσ ho h1 h1', ?_, ?_⟩ .nil
    · intro k hk
      have hk' := (slot_lt37 hσ).2 hk
      rw [h2, h2', ho.player]
      simp only [List.getElem?_map, List.getElem?_range hk, List.getElem?_range hk', Option.map_some, h.hand_tensors _ k]
    · exact ⟨t / 4, by omega, h3, by rw [h3', tile_kind htl]⟩
  | @post q e o o' a a' n n' ho ha hn =>
    obtain ⟨f1, f2, f3⟩ := hf
    obtain ⟨f1', f2', f3'⟩ := hf'
    have hwf : ∀ p, ∀ d ∈ callsOf n p, WellFormed d.naki.naki_code := by
      intro p d hd
      rw [callsOf, List.getD_eq_getElem?_getD] at hd
      cases hl : n[p]? with
      | none => simp [hl] at hd
      | some l =>
        simp only [hl, Option.getD_some] at hd
        exact hw l (List.mem_of_getElem? hl) d hd
    have g := hr f2 f3 f1
    have g' := hr' f2' f3' f1'
    rw [deciders_suits ha hn] at g'
    have hlt : ∀ p ∈ deciders q a n, p < 4 := deciders_lt
    clear hr hr'
    show AllPairs (CallRowSuits σ) rows rows'
    generalize deciders q a n = ps at g g' hlt
    induction g generalizing rows' with
    | nil => cases g'; exact .nil
    | @cons p row ps rows hp _ ih =>
      cases g' with
      | @cons _ row' _ rows'' hp' g2 =>
        have hp4 := hlt p (by simp)
        obtain ⟨u1, u2, u3⟩ := hp
        obtain ⟨w1, w2, w3⟩ := hp'
        rw [ha p hp4, hn p hp4] at w2 w3
        exact .cons ⟨h.base hσ ho u1 w1, _, _, hwf p, u2, u3, w2, w3⟩ (ih g2 (fun x hx => hlt x (by simp [hx])))

/-! ### rounds -/

/-- two accepted rounds, the second with the suits exchanged -/
structure SameSuits (σ : Suits) (est est' : Estimate) (sh sh' : List Int → Except PyErr Int) (g : GameInfo) (a a' : InitAttr)
    (acts : List Act) (s s' : RoundSt) : Prop where
  proper : σ.Proper
  evaluator : EvalSuits σ est est'
  distance : DistanceSuits σ sh sh'
  deal : DealSuits σ a a'
  calls : ∀ p c, Act.call p c ∈ acts → WellFormed c
  first : ∃ c s0, initRound est sh g a = .ok (c, s0) ∧ Reached c s0 acts s
  second : ∃ c s0, initRound est' sh' g a' = .ok (c, s0) ∧ Reached c s0 (acts.map (Act.suits σ)) s'

theorem SameSuits.moved {σ : Suits} {est est' : Estimate} {sh sh' : List Int → Except PyErr Int} {g : GameInfo} {a a' : InitAttr}
    {acts : List Act} {s s' : RoundSt} (h : SameSuits σ est est' sh sh' g a a' acts s s') : StSuits (PonsKept σ acts) σ s s' := by
  obtain ⟨c, s0, hi, hr⟩ := h.first
  obtain ⟨c', s0', hi', hr'⟩ := h.second
  obtain ⟨h1, h2⟩ := h.deal.start (Q := PonsKept σ acts) h.proper h.evaluator h.distance hi hi'
  exact suits_reached h.proper h1 acts h2 (tableOk_reached hi .start) (fun p k hk => ⟨h.calls p k hk, fun hQ => hQ p k hk⟩) hr hr'

/-- C153: the tokens and the half-turns with their wins, riichi and calls are those of the first round with the suits
exchanged; so are the kans of the own turns if pons are called only of kinds that are kept. -/
theorem C153_decisions {σ : Suits} {est est' : Estimate} {sh sh' : List Int → Except PyErr Int} {g : GameInfo} {a a' : InitAttr}
    {acts : List Act} {s s' : RoundSt} (h : SameSuits σ est est' sh sh' g a a' acts s s') :
    AllPairs (TokenSuits σ) s.encoding_tokens s'.encoding_tokens ∧ AllPairs (TurnSuits (PonsKept σ acts) σ) s.halfturns s'.halfturns :=
  ⟨h.moved.tokens, h.moved.turns⟩

theorem TurnSuits.kinds {Q : Prop} {σ : Suits} {t t' : HalfTurn} (h : TurnSuits Q σ t t') :
    t.isDuring = t'.isDuring ∧ t.isDiscard = t'.isDiscard ∧ t.isPost = t'.isPost := by
  cases h <;> exact ⟨rfl, rfl, rfl⟩

/-- C153: the samples of the discard and the call head are in the same order those of the first round with the suits
exchanged; so are those of the own-turn head if pons are called only of kinds that are kept. -/
theorem C153_samples_partial {σ : Suits} {est est' : Estimate} {sh sh' : List Int → Except PyErr Int} {g : GameInfo} {a a' : InitAttr}
    {acts : List Act} {s s' : RoundSt} (h : SameSuits σ est est' sh sh' g a a' acts s s')
    {v : Variant} {d cc b d' cc' b' : Batch} (hb : buildTensors v s s.halfturns s.encoding_tokens = .ok (d, cc, b))
    (hb' : buildTensors v s' s'.halfturns s'.encoding_tokens = .ok (d', cc', b')) :
    (PonsKept σ acts → ∃ rows rows', d = ofRows rows ∧ d' = ofRows rows' ∧ AllPairs (OwnRowSuits σ) rows rows') ∧
    (∃ rows rows', cc = ofRows rows ∧ cc' = ofRows rows' ∧ AllPairs (DiscardRowSuits σ) rows rows') ∧
    (∃ rows rows', b = ofRows rows ∧ b' = ofRows rows' ∧ AllPairs (CallRowSuits σ) rows rows') := by
  have hm := h.moved
  obtain ⟨c, s0, hi, hr⟩ := h.first
  obtain ⟨c', s0', hi', hr'⟩ := h.second
  have hf := fourLists_reached hi hr
  have hf' := fourLists_reached hi' hr'
  obtain ⟨x⟩ := buildTensors_rows hf hb
  obtain ⟨x'⟩ := buildTensors_rows hf' hb'
  have key : ∀ (R : Row → Row → Prop) (f : HalfTurn → Bool) (g g' : List (List Row)),
      (∀ t t', TurnSuits (PonsKept σ acts) σ t t' → f t = f t') →
      (∀ t, f t = true → ∀ rows rows', RowsSuits (PonsKept σ acts) σ t rows rows' → AllPairs R rows rows') →
      AllPairs (RowsOf v s s.encoding_tokens) (s.halfturns.filter f) g →
      AllPairs (RowsOf v s' s'.encoding_tokens) (s'.halfturns.filter f) g' → AllPairs R g.flatten g'.flatten := by
    intro R f g g' hk hR h1 h2
    refine Spec.AllPairs.flatten (pairs_groups (hm.turns.filter hk) h1 h2 ?_)
    intro t ht t' ht' rows rows' htt hrow hrow'
    exact hR t (List.mem_filter.1 ht).2 _ _
      (hm.rows h.proper htt (offersWf_reached hi hr t (List.mem_filter.1 ht).1) (hf t (List.mem_filter.1 ht).1) (hf' t' (List.mem_filter.1 ht').1) hrow hrow')
  refine ⟨fun hQ => ⟨_, _, x.d_eq, x'.d_eq, key _ _ _ _ (fun t t' h => h.kinds.1) ?_ x.during x'.during⟩,
    ⟨_, _, x.c_eq, x'.c_eq, key _ _ _ _ (fun t t' h => h.kinds.2.1) ?_ x.discard x'.discard⟩,
    ⟨_, _, x.p_eq, x'.p_eq, key _ _ _ _ (fun t t' h => h.kinds.2.2) ?_ x.post x'.post⟩⟩
  · intro t ht rows rows' hrows
    cases t with
    | during => exact hrows hQ
    | discard => simp [HalfTurn.isDuring] at ht
    | post => simp [HalfTurn.isDuring] at ht
  · intro t ht rows rows' hrows
    cases t with
    | discard => exact hrows
    | during => simp [HalfTurn.isDiscard] at ht
    | post => simp [HalfTurn.isDiscard] at ht
  · intro t ht rows rows' hrows
    cases t with
    | post => exact hrows
    | during => simp [HalfTurn.isPost] at ht
    | discard => simp [HalfTurn.isPost] at ht

/-! ### every evaluator has its counterpart -/

theorem honours_unique {σ : Suits} {z1 z2 z : List Nat} (h1 : HonoursMoved σ z1 z) (h2 : HonoursMoved σ z2 z) : z1 = z2 := by
  have hp : z1.Perm z2 := List.perm_iff_count.2 (fun d => by
    by_cases hd : 1 ≤ d ∧ d ≤ 7
    · have e1 := h1.count (d - 1) (by omega)
      have e2 := h2.count (d - 1) (by omega)
      rw [show 1 + (d - 1) = d by omega] at e1 e2
      rw [← e1, ← e2]
    · rw [List.count_eq_zero_of_not_mem (fun h => hd (h1.digits d h)), List.count_eq_zero_of_not_mem (fun h => hd (h2.digits d h))])
  exact hp.eq_of_pairwise (fun a b _ _ h1 h2 => Nat.le_antisymm h1 h2) h1.sorted h2.sorted

theorem query_unique {σ : Suits} (hσ : σ.Proper) {q1 q2 q : Query} (h1 : QuerySuits σ q1 q) (h2 : QuerySuits σ q2 q) : q1 = q2 := by
  have e1 := h1.man.symm.trans h2.man
  have e2 := h1.pin.symm.trans h2.pin
  have e3 := h1.sou.symm.trans h2.sou
  have e4 := honours_unique h1.honors h2.honors
  have e5 := (tile_inj hσ).1 (h1.win_tile.symm.trans h2.win_tile)
  have e6 := h1.melds.symm.trans h2.melds
  have e7 := h1.doras.symm.trans h2.doras
  have e8 := h1.config.symm.trans h2.config
  have hl : ∀ l l' : List Nat, l.map σ.tile = l'.map σ.tile → l = l' := fun l l' e =>
    (List.map_inj_right (fun x y hxy => (tile_inj hσ).1 hxy)).1 e
  have e6' : q1.melds = q2.melds := by
    refine (List.map_inj_right (fun x y hxy => ?_)).1 e6
    cases x; cases y
    simp only [MeldArg.mk.injEq] at hxy ⊢
    exact ⟨hxy.1, hl _ _ hxy.2.1, hxy.2.2⟩
  cases q1; cases q2
  simp only [Option.some.injEq] at e1 e2 e3
  simp only at e4 e5 e6' e7 e8
  simp only [Query.mk.injEq]
  exact ⟨e1, e2, e3, e4, e5, e6', hl _ _ e7, e8⟩

/-- for every evaluator there is one that answers about the exchanged hands what it answers about the hands -/
theorem evaluator_exists {σ : Suits} (hσ : σ.Proper) (est : Estimate) :
    ∃ est', EvalSuits σ est est' ∧ ((∀ q, ∃ b, est q = .ok b) → ∀ q, ∃ b, est' q = .ok b) := by
  classical
  refine ⟨fun q => if h : ∃ q0, QuerySuits σ q0 q then est h.choose else .ok false, ?_, ?_⟩
  · intro q q' hq
    have hex : ∃ q0, QuerySuits σ q0 q' := ⟨q, hq⟩
    show (if h : ∃ q0, QuerySuits σ q0 q' then est h.choose else .ok false) = est q
    rw [dif_pos hex, query_unique hσ hex.choose_spec hq]
  · intro he q
    show ∃ b, (if h : ∃ q0, QuerySuits σ q0 q then est h.choose else .ok false) = .ok b
    split
    · exact he _
    · exact ⟨_, rfl⟩

@[inherit_doc evaluator_exists]
theorem distance_exists {σ : Suits} (hσ : σ.Proper) (sh : List Int → Except PyErr Int) : ∃ sh', DistanceSuits σ sh sh' := by
  refine ⟨fun l => sh ((List.range 34).map (fun k => l.getD (σ.slot k) 0)), ?_⟩
  intro f f' h
  show sh ((List.range 34).map (fun k => ((List.range 34).map f').getD (σ.slot k) 0)) = _
  congr 1
  refine List.map_congr_left (fun k hk => ?_)
  have hk := List.mem_range.1 hk
  have hk' := (slot_lt34 hσ).2 hk
  rw [List.getD_eq_getElem?_getD, List.getElem?_map, List.getElem?_range hk']
  exact h k hk

/-! ### added kans -/

/-- how many kans are offered in an own turn -/
def kansOffered : HalfTurn → Nat
  | .during _ _ _ _ _ n => n.length
  | _ => 0

theorem swap_proper : Suits.Proper ⟨2, 1, 0, id⟩ := ⟨by decide, fun _ h => h, fun _ _ _ _ h => h⟩

/-- a deal with characters and bamboo exchanged -/
def dealAddSwapped : InitAttr :=
  { dealAdd with hai := fun p => .ok ((dealtAdd p).map (Suits.tile ⟨2, 1, 0, id⟩)) }

theorem dealAdd_swapped : DealSuits ⟨2, 1, 0, id⟩ dealAdd dealAddSwapped where
  seed := by
    intro r h k x y d e
    cases e; rfl
  oya := rfl
  hai := by
    intro p _ l e
    cases e; rfl
  ten := rfl

theorem addedKan_accepted : accepts (processRound noWin farAway ⟨0⟩ dealAdd (logOf (addActs 1 124) ++ [.result true (.ok [0, 0, 0, 0])]))
    (fun s => s.halfturns.map kansOffered == [0, 0, 0, 0, 0, 0, 0, 0, 0, 0, 0, 0, 0, 0, 1]) = true := by decide +kernel

theorem addedKan_swapped : accepts (processRound noWin farAway ⟨0⟩ dealAddSwapped
    (logOf ((addActs 1 124).map (Act.suits ⟨2, 1, 0, id⟩)) ++ [.result true (.ok [0, 0, 0, 0])]))
    (fun s => s.halfturns.map kansOffered == [0, 0, 0, 0, 0, 0, 0, 0, 0, 0, 0, 0, 0, 0, 0]) = true := by decide +kernel

theorem noWin_suits (σ : Suits) : EvalSuits σ noWin noWin := fun _ _ _ => rfl

theorem farAway_suits (σ : Suits) : DistanceSuits σ farAway farAway := fun _ _ _ => rfl

/-- C153 is violated: whether an added kan is offered depends on whether the player holds the *tile* whose number is that of
the kind — a tile of the characters, whatever the suit of the pon. -/
theorem C153_addedKan_violated : ¬ ∀ (σ : Suits) (est est' : Estimate) (sh sh' : List Int → Except PyErr Int) (g : GameInfo)
    (a a' : InitAttr) (acts : List Act) (s s' : RoundSt), SameSuits σ est est' sh sh' g a a' acts s s' →
    s'.halfturns.map kansOffered = s.halfturns.map kansOffered := by
  intro h
  obtain ⟨s, h1, h2⟩ := accepts_ok addedKan_accepted
  obtain ⟨s', h1', h2'⟩ := accepts_ok addedKan_swapped
  have hc : ∀ p c, Act.call p c ∈ addActs 1 124 → WellFormed c := by
    intro p c hc
    simp only [addActs, List.mem_cons, reduceCtorEq, Act.call.injEq, List.not_mem_nil, or_false, false_or] at hc
    rw [hc.2]
    exact (C93_covers _).2 ⟨_, by simp [LogMeld.Valid], rfl⟩
  have := h ⟨2, 1, 0, id⟩ noWin noWin farAway farAway ⟨0⟩ dealAdd dealAddSwapped (addActs 1 124) s s'
    ⟨swap_proper, noWin_suits _, farAway_suits _, dealAdd_swapped, hc, accepted_exact h1 rfl, accepted_exact h1' rfl⟩
  rw [beq_iff_eq.1 h2, beq_iff_eq.1 h2'] at this
  simp at this

/-- C153: the numbers of the actions of the call head cannot be renumbered so that the exchange of the suits becomes a
renumbering: number 74 is that of a chi 567 of characters and of a chi 345 of dots. -/
theorem C153_actions_violated : ¬ ∃ f : Int → Int, ∀ c i, WellFormed c → get_post_turn_filter_idx c = .ok i →
    get_post_turn_filter_idx (Suits.code ⟨2, 1, 0, id⟩ c) = .ok (f i) := by
  rintro ⟨f, h⟩
  have w1 : WellFormed (chiInfo 0 4 1 true) := chi_wf true 0 (by omega) 4 (by omega) 1 (by omega) (.inr (by omega))
  have w2 : WellFormed (chiInfo 1 2 0 true) := chi_wf true 1 (by omega) 2 (by omega) 0 (by omega) (.inr (by omega))
  have h1 := h _ 74 w1 (by decide +kernel)
  have h2 := h _ 74 w2 (by decide +kernel)
  have e1 : get_post_turn_filter_idx (Suits.code ⟨2, 1, 0, id⟩ (chiInfo 0 4 1 true)) = .ok 86 := by decide +kernel
  have e2 : get_post_turn_filter_idx (Suits.code ⟨2, 1, 0, id⟩ (chiInfo 1 2 0 true)) = .ok 74 := by decide +kernel
  rw [e1] at h1
  rw [e2] at h2
  have := (Except.ok.inj h1).trans (Except.ok.inj h2).symm
  omega

/-- nobody calls a pon -/
theorem NoPon.kept {acts : List Act} (h : NoPon acts) (σ : Suits) : PonsKept σ acts := fun p c hc hp => by
  rw [h p c hc] at hp; simp at hp

/-- with no pon, or pons only of kinds that are kept, the number of offered kans is the same -/
theorem C153_kans_offered {σ : Suits} {est est' : Estimate} {sh sh' : List Int → Except PyErr Int} {g : GameInfo} {a a' : InitAttr}
    {acts : List Act} {s s' : RoundSt} (h : SameSuits σ est est' sh sh' g a a' acts s s') (hn : PonsKept σ acts) :
    s'.halfturns.map kansOffered = s.halfturns.map kansOffered := by
  have := (C153_decisions h).2
  generalize s.halfturns = l, s'.halfturns = l' at this
  induction this with
  | nil => rfl
  | cons h1 _ ih =>
    rw [List.map_cons, List.map_cons, ih]
    congr 1
    cases h1 with
    | during ho hown =>
      obtain ⟨A, K, A', K', rfl, rfl, e1, _, _, e4, _⟩ := hown
      obtain ⟨rfl, _⟩ := e4 hn
      simpa [kansOffered] using e1.length_eq
    | discard => rfl
    | post => rfl

/-! ### which rounds are accepted -/

theorem meld_tiles_suits {σ : Suits} (hσ : σ.Proper) (m : LogMeld) (hv : m.Valid) :
    (m.suits σ).tiles.1 = m.tiles.1.map σ.tile := by
  have h1 := (C93_tiles m hv).1
  have h2 := exposed_code hσ (ex := m.tiles.1) (acq := m.tiles.2) ((C93_covers _).2 ⟨m, hv, rfl⟩) h1
  rw [code_encode hσ m hv, (C93_tiles _ (suits_valid hσ m hv)).1] at h2
  exact congrArg Prod.fst (Except.ok.inj h2)

theorem exposedTiles_suits {σ : Suits} (hσ : σ.Proper) {c : Nat} (w : WellFormed c) :
    exposedTiles (σ.code c) = (exposedTiles c).map σ.tile := by
  obtain ⟨m, hv, rfl⟩ := (C93_covers c).1 w
  rw [code_encode hσ m hv, exposed_encode m hv, exposed_encode _ (suits_valid hσ m hv), meld_tiles_suits hσ m hv]

theorem loses_suits {σ : Suits} (hσ : σ.Proper) {x : Act} (hx : ∀ p c, x = .call p c → WellFormed c) (p : Nat) :
    (x.suits σ).loses p = (x.loses p).map σ.tile := by
  cases x with
  | call q c =>
    simp only [Act.loses, Act.suits, Act.discarded, Act.exposed, List.nil_append, exposedTiles_suits hσ (hx q c rfl)]
    split <;> rfl
  | discard q t =>
    simp only [Act.loses, Act.suits, Act.discarded, Act.exposed, List.append_nil]
    split <;> rfl
  | _ => rfl

theorem lastMove_suits (σ : Suits) (acts : List Act) : lastMove (acts.map (Act.suits σ)) = (lastMove acts).map (Act.suits σ) := by
  unfold lastMove
  rw [List.filter_map, List.getLast?_map]
  congr 2
  refine List.filter_congr (fun x _ => ?_)
  cases x <;> rfl

theorem holderOf_suits (σ : Suits) (o : Option Act) : holderOf (o.map (Act.suits σ)) = holderOf o := by
  cases o with
  | none => rfl
  | some x =>
    cases x <;> simp only [Option.map_some, Act.suits, holderOf]
    all_goals try simp only [code_is_chi, code_is_pon, code_is_minkan, code_is_ankan, code_is_kakan]

theorem holds_suits {σ : Suits} (hσ : σ.Proper) {hai : Nat → List Nat} {acts : List Act}
    (hw : ∀ p c, Act.call p c ∈ acts → WellFormed c) (p t : Nat) :
    Holds (fun p => (hai p).map σ.tile) (acts.map (Act.suits σ)) p (σ.tile t) ↔ Holds hai acts p t := by
  unfold Holds
  have key : ∀ l : List Act, (∀ p c, Act.call p c ∈ l → WellFormed c) →
      ((∀ x ∈ l.map (Act.suits σ), σ.tile t ∉ x.loses p) ↔ ∀ x ∈ l, t ∉ x.loses p) := by
    intro l hl
    simp only [List.forall_mem_map]
    constructor
    · intro h x hx hm
      refine h x hx ?_
      rw [loses_suits hσ (fun q c e => hl q c (by rw [← e]; exact hx))]
      exact (mem_tiles hσ).2 hm
    · intro h x hx hm
      rw [loses_suits hσ (fun q c e => hl q c (by rw [← e]; exact hx))] at hm
      exact h x hx ((mem_tiles hσ).1 hm)
  refine or_congr (and_congr (mem_tiles hσ) (key acts hw)) ?_
  constructor
  · rintro ⟨pre, post, e, h⟩
    obtain ⟨l1, l2, rfl, rfl, e2⟩ := List.map_eq_append_iff.1 e
    obtain ⟨x, l3, rfl, e3, rfl⟩ := List.map_eq_cons_iff.1 e2
    refine ⟨l1, l3, ?_, (key l3 (fun q c hc => hw q c (by simp [hc]))).1 h⟩
    cases x <;> simp only [Act.suits, reduceCtorEq, Act.draw.injEq] at e3
    obtain ⟨rfl, e3⟩ := e3
    rw [(tile_inj hσ).1 e3]
  · rintro ⟨pre, post, rfl, h⟩
    exact ⟨pre.map (Act.suits σ), post.map (Act.suits σ), by simp [Act.suits],
      (key post (fun q c hc => hw q c (by simp [hc]))).2 h⟩

theorem own_suits (σ : Suits) (m : LogMeld) : (m.suits σ).own = m.own := by
  cases m <;> rfl

theorem consistent_suits {σ : Suits} (hσ : σ.Proper) {hai : Nat → List Nat} {acts : List Act}
    (hw : ∀ p c, Act.call p c ∈ acts → WellFormed c) {x : Act} (h : Consistent hai acts x) :
    Consistent (fun p => (hai p).map σ.tile) (acts.map (Act.suits σ)) (x.suits σ) := by
  cases x with
  | dora t => exact (tile_lt hσ).2 h
  | declare p =>
    obtain ⟨hp, q, t, e⟩ := h
    exact ⟨hp, q, σ.tile t, by rw [lastMove_suits, e]; rfl⟩
  | accept p =>
    obtain ⟨hp, q, t, e⟩ := h
    exact ⟨hp, q, σ.tile t, by rw [lastMove_suits, e]; rfl⟩
  | draw p t =>
    obtain ⟨h1, h2, h3, h4⟩ := h
    exact ⟨h1, by rw [lastMove_suits, holderOf_suits, h2], (tile_lt hσ).2 h3, fun e => h4 ((holds_suits hσ hw p t).1 e)⟩
  | discard p t =>
    obtain ⟨h1, h2, h3⟩ := h
    exact ⟨h1, by rw [lastMove_suits, holderOf_suits, h2], (holds_suits hσ hw p t).2 h3⟩
  | call p c =>
    obtain ⟨h1, m, h2, h3, h4, h5⟩ := h
    refine ⟨h1, m.suits σ, suits_valid hσ m h2, by rw [h3]; exact code_encode hσ m h2, ?_, ?_⟩
    · intro t ht
      rw [meld_tiles_suits hσ m h2] at ht
      obtain ⟨t0, ht0, rfl⟩ := List.mem_map.1 ht
      exact (holds_suits hσ hw p t0).2 (h4 t0 ht0)
    · rw [own_suits]
      split
      · next hm =>
        rw [if_pos hm] at h5
        obtain ⟨t, e⟩ := h5
        exact ⟨σ.tile t, by rw [lastMove_suits, e]; rfl⟩
      · next hm =>
        rw [if_neg hm] at h5
        obtain ⟨q, t, e⟩ := h5
        exact ⟨q, σ.tile t, by rw [lastMove_suits, e]; rfl⟩

theorem kindCount_suits {σ : Suits} (hσ : σ.Proper) {l : List Nat} (hl : ∀ t ∈ l, t < 136) (k : Nat) :
    kindCount (l.map σ.tile) (σ.slot k) = kindCount l k := by
  unfold kindCount
  rw [List.countP_map]
  refine List.countP_congr (fun t ht => ?_)
  simp only [Function.comp, tile_kind (hl t ht), beq_iff_eq, slot_inj hσ]

theorem slotCount_suits {σ : Suits} (hσ : σ.Proper) {l : List Nat} (hl : ∀ t ∈ l, t < 136) (k : Nat) :
    slotCount (l.map σ.tile) (σ.slot k) = slotCount l k := by
  unfold slotCount
  rw [List.countP_map]
  refine List.countP_congr (fun t ht => ?_)
  simp only [Function.comp, decide_eq_true_eq, ← mem_tile2idx, tile2idx_tile hσ (hl t ht), mem_slots hσ]

theorem collect_suits {σ : Suits} {f : Act → List Nat} {acts : List Act} (h : ∀ x ∈ acts, f (x.suits σ) = (f x).map σ.tile) :
    collect f (acts.map (Act.suits σ)) = (collect f acts).map σ.tile := by
  unfold collect
  rw [List.flatMap_map]
  induction acts with
  | nil => rfl
  | cons x l ih =>
    rw [List.flatMap_cons, List.flatMap_cons, List.map_append, h x (by simp), ih (fun y hy => h y (by simp [hy]))]

/-- all tiles of the events of a consistent round are tiles -/
theorem consistent_tiles {hai : Nat → List Nat} (hh : ∀ p < 4, ∀ t ∈ hai p, t < 136) {acts : List Act}
    (h : ConsistentRound hai acts) (hw : ∀ p c, Act.call p c ∈ acts → WellFormed c) :
    (∀ p t, Act.draw p t ∈ acts → t < 136) ∧ (∀ t, Act.dora t ∈ acts → t < 136) ∧ (∀ p t, Act.discard p t ∈ acts → t < 136) ∧
    ∀ p c, Act.call p c ∈ acts → ∀ t ∈ exposedTiles c, t < 136 := by
  have hdraw : ∀ p t, Act.draw p t ∈ acts → t < 136 := by
    intro p t hm
    obtain ⟨l1, l2, e⟩ := List.append_of_mem hm
    exact (h _ _ _ e).2.2.1
  have hheld : ∀ pre x post, acts = pre ++ x :: post → ∀ p < 4, ∀ t, Holds hai pre p t → t < 136 := by
    intro pre x post e p hp t ht
    rcases ht with ⟨h1, _⟩ | ⟨p1, p2, h1, _⟩
    · exact hh p hp t h1
    · exact hdraw p t (by rw [e, h1]; simp)
  refine ⟨hdraw, ?_, ?_, ?_⟩
  · intro t hm
    obtain ⟨l1, l2, e⟩ := List.append_of_mem hm
    exact h _ _ _ e
  · intro p t hm
    obtain ⟨l1, l2, e⟩ := List.append_of_mem hm
    have hc := h _ _ _ e
    exact hheld _ _ _ e p hc.1 t hc.2.2
  · intro p c hm t ht
    obtain ⟨l1, l2, e⟩ := List.append_of_mem hm
    obtain ⟨hp, m, h2, h3, h4, _⟩ := h _ _ _ e
    rw [h3, exposed_encode m h2] at ht
    exact hheld _ _ _ e p hp t (h4 t ht)

theorem supply_suits {σ : Suits} (hσ : σ.Proper) {hai : Nat → List Nat} {first : Nat} {acts : List Act}
    (hh : ∀ p < 4, ∀ t ∈ hai p, t < 136) (hfirst : first < 136) (hr : ConsistentRound hai acts)
    (hw : ∀ p c, Act.call p c ∈ acts → WellFormed c) (h : WithinSupply hai first acts) :
    WithinSupply (fun p => (hai p).map σ.tile) (σ.tile first) (acts.map (Act.suits σ)) := by
  obtain ⟨t1, t2, t3, t4⟩ := consistent_tiles hh hr hw
  have e1 : collect Act.drawnByAny (acts.map (Act.suits σ)) = (collect Act.drawnByAny acts).map σ.tile :=
    collect_suits (fun x _ => by cases x <;> rfl)
  have e2 : collect Act.doras (acts.map (Act.suits σ)) = (collect Act.doras acts).map σ.tile :=
    collect_suits (fun x _ => by cases x <;> rfl)
  have e3 : ∀ p, collect (Act.drawn p) (acts.map (Act.suits σ)) = (collect (Act.drawn p) acts).map σ.tile := by
    intro p
    refine collect_suits (fun x _ => ?_)
    cases x <;> simp only [Act.suits, Act.drawn, List.map_nil]
    split <;> rfl
  have e4 : ∀ p, collect (Act.shownTo p) (acts.map (Act.suits σ)) = (collect (Act.shownTo p) acts).map σ.tile := by
    intro p
    refine collect_suits (fun x hx => ?_)
    cases x with
    | call q c =>
      simp only [Act.suits, Act.shownTo, exposedTiles_suits hσ (hw q c hx)]
      split <;> rfl
    | discard q t =>
      simp only [Act.suits, Act.shownTo]
      split <;> rfl
    | _ => rfl
  have l1 : ∀ t ∈ collect Act.drawnByAny acts, t < 136 := by
    intro t ht
    obtain ⟨x, hx, hm⟩ := List.mem_flatMap.1 ht
    cases x <;> simp only [Act.drawnByAny, List.not_mem_nil, List.mem_singleton] at hm
    subst hm
    exact t1 _ _ hx
  have l2 : ∀ t ∈ collect Act.doras acts, t < 136 := by
    intro t ht
    obtain ⟨x, hx, hm⟩ := List.mem_flatMap.1 ht
    cases x <;> simp only [Act.doras, List.not_mem_nil, List.mem_singleton] at hm
    subst hm
    exact t2 _ hx
  have l3 : ∀ p, ∀ t ∈ collect (Act.drawn p) acts, t < 136 := by
    intro p t ht
    obtain ⟨x, hx, hm⟩ := List.mem_flatMap.1 ht
    cases x <;> simp only [Act.drawn, List.not_mem_nil] at hm
    split at hm
    · rw [List.mem_singleton] at hm
      subst hm
      exact t1 _ _ hx
    · simp at hm
  have l4 : ∀ p, ∀ t ∈ collect (Act.shownTo p) acts, t < 136 := by
    intro p t ht
    obtain ⟨x, hx, hm⟩ := List.mem_flatMap.1 ht
    cases x with
    | call q c =>
      simp only [Act.shownTo] at hm
      split at hm
      · simp at hm
      · exact t4 q c hx t hm
    | discard q u =>
      simp only [Act.shownTo] at hm
      split at hm
      · simp at hm
      · rw [List.mem_singleton] at hm
        subst hm
        exact t3 _ _ hx
    | _ => simp [Act.shownTo] at hm
  have l0 : ∀ t ∈ hai 0 ++ hai 1 ++ hai 2 ++ hai 3 ++ [first], t < 136 := by
    intro t ht
    simp only [List.mem_append, List.mem_singleton] at ht
    rcases ht with (((ht | ht) | ht) | ht) | rfl
    · exact hh 0 (by omega) t ht
    · exact hh 1 (by omega) t ht
    · exact hh 2 (by omega) t ht
    · exact hh 3 (by omega) t ht
    · exact hfirst
  refine ⟨?_, ?_, ?_, ?_⟩
  · intro k hk
    obtain ⟨j, hj, rfl⟩ := slot_surj hσ (k := k) (by omega)
    have hj' := (slot_lt34 hσ).1 hk
    have := h.wall j hj'
    have e : outOfWall (fun p => (hai p).map σ.tile) (σ.tile first) (acts.map (Act.suits σ)) = (outOfWall hai first acts).map σ.tile := by
      unfold outOfWall
      rw [e1, e2]
      simp only [List.map_append, List.map_cons, List.map_nil]
    rw [e, kindCount_suits hσ ?_]
    · exact this
    · intro t ht
      rcases List.mem_append.1 ht with ht | ht
      · rcases List.mem_append.1 ht with ht | ht
        · exact l0 t ht
        · exact l1 t ht
      · exact l2 t ht
  · intro k hk hk'
    obtain ⟨j, hj, rfl⟩ := slot_surj hσ hk'
    have hj' : 34 ≤ j := by
      have := slot_lt34 hσ (k := j)
      omega
    have := h.wall_red j hj' hj
    rw [e1, show List.map σ.tile (hai 0) ++ List.map σ.tile (hai 1) ++ List.map σ.tile (hai 2) ++ List.map σ.tile (hai 3) ++
      [σ.tile first] ++ List.map σ.tile (collect Act.drawnByAny acts) =
      (hai 0 ++ hai 1 ++ hai 2 ++ hai 3 ++ [first] ++ collect Act.drawnByAny acts).map σ.tile by
        simp only [List.map_append, List.map_cons, List.map_nil], slotCount_suits hσ ?_]
    · exact this
    · intro t ht
      rcases List.mem_append.1 ht with ht | ht
      · exact l0 t ht
      · exact l1 t ht
  · intro p hp k hk
    obtain ⟨j, hj, rfl⟩ := slot_surj hσ (k := k) (by omega)
    have hj' := (slot_lt34 hσ).1 hk
    have := h.seen p hp j hj'
    have e : seenBy (fun p => (hai p).map σ.tile) (σ.tile first) (acts.map (Act.suits σ)) p = (seenBy hai first acts p).map σ.tile := by
      unfold seenBy
      rw [e2, e3, e4]
      simp only [List.map_append, List.map_cons, List.map_nil]
    rw [e, kindCount_suits hσ ?_]
    · exact this
    · intro t ht
      simp only [seenBy, List.mem_append, List.mem_singleton] at ht
      rcases ht with (((ht | rfl) | ht) | ht) | ht
      · exact hh p hp t ht
      · exact hfirst
      · exact l3 p t ht
      · exact l4 p t ht
      · exact l2 t ht
  · intro p hp k hk hk'
    obtain ⟨j, hj, rfl⟩ := slot_surj hσ hk'
    have hj' : 34 ≤ j := by
      have := slot_lt34 hσ (k := j)
      omega
    have := h.seen_red p hp j hj' hj
    rw [e3, e4, show List.map σ.tile (hai p) ++ [σ.tile first] ++ List.map σ.tile (collect (Act.drawn p) acts) ++
      List.map σ.tile (collect (Act.shownTo p) acts) =
      (hai p ++ [first] ++ collect (Act.drawn p) acts ++ collect (Act.shownTo p) acts).map σ.tile by
        simp only [List.map_append, List.map_cons, List.map_nil], slotCount_suits hσ ?_]
    · exact this
    · intro t ht
      simp only [List.mem_append, List.mem_singleton] at ht
      rcases ht with ((ht | rfl) | ht) | ht
      · exact hh p hp t ht
      · exact hfirst
      · exact l3 p t ht
      · exact l4 p t ht

theorem kans_suits {σ : Suits} {acts : List Act} (h : KansByDrawer acts) : KansByDrawer (acts.map (Act.suits σ)) := by
  intro pre p c post e hc
  obtain ⟨l1, l2, rfl, rfl, e2⟩ := List.map_eq_append_iff.1 e
  obtain ⟨x, l3, rfl, e3, rfl⟩ := List.map_eq_cons_iff.1 e2
  cases x <;> simp only [Act.suits, reduceCtorEq, Act.call.injEq] at e3
  obtain ⟨rfl, rfl⟩ := e3
  rw [code_is_ankan, code_is_kakan] at hc
  obtain ⟨t, ht⟩ := h _ _ _ _ rfl hc
  exact ⟨σ.tile t, by rw [lastMove_suits, ht]; rfl⟩

/-- C153: with the suits exchanged, an accepted round is accepted, with or without pons. -/
theorem C153_accepted {σ : Suits} (hσ : σ.Proper) {est est' : Estimate} {sh sh' : List Int → Except PyErr Int}
    (he : ∀ q, ∃ b, est q = .ok b) (hs : ∀ l, ∃ n, sh l = .ok n) (he' : ∀ q, ∃ b, est' q = .ok b) (hs' : ∀ l, ∃ n, sh' l = .ok n)
    (g : GameInfo) {a a' : InitAttr} (hm : DealSuits σ a a') {sc : List Int}
    (hsc : a.ten = .ok sc) (hsc4 : sc.length = 4) {oya : Nat} (hoya : a.oya = .ok oya) (hoya4 : oya < 4)
    {hai : Nat → List Nat} {first : Nat} (hd : a.Deals hai first)
    (hsize : ∀ p < 4, (hai p).length = 13) (htiles : ∀ t ∈ hai 0 ++ hai 1 ++ hai 2 ++ hai 3 ++ [first], t < 136)
    (hdist : ∀ p < 4, (hai p).Nodup) {acts : List Act} (hwho : ∀ x ∈ acts, x.who < 4) (hk : KansByDrawer acts)
    (hw : ∀ p c, Act.call p c ∈ acts → WellFormed c) {w : Bool} {res : List Int}
    (h : ∃ s, processRound est sh g a (logOf acts ++ [.result w (.ok res)]) = .ok s) :
    ∃ s, processRound est' sh' g a' (logOf (acts.map (Act.suits σ)) ++ [.result w (.ok res)]) = .ok s := by
  rw [C56_accepted_iff he hs g hsc hsc4 hoya hoya4 hd hsize htiles hdist hwho hk hw] at h
  obtain ⟨h1, h2⟩ := h
  have hh : ∀ p < 4, ∀ t ∈ hai p, t < 136 := by
    intro p hp t ht
    refine htiles t ?_
    have h4 : p = 0 ∨ p = 1 ∨ p = 2 ∨ p = 3 := by omega
    rcases h4 with rfl | rfl | rfl | rfl <;> simp [ht]
  have hfirst : first < 136 := htiles first (by simp)
  have hd' : a'.Deals (fun p => (hai p).map σ.tile) (σ.tile first) := by
    obtain ⟨k1, r, hb, k, x, y, k2⟩ := hd
    exact ⟨fun p hp => hm.hai p hp _ (k1 p hp), r, hb, k, x, y, hm.seed _ _ _ _ _ _ k2⟩
  refine (C56_accepted_iff he' hs' g (hm.ten.trans hsc) hsc4 (hm.oya.trans hoya) hoya4 hd' ?_ ?_ ?_ ?_ (kans_suits hk) ?_).2
    ⟨?_, supply_suits hσ hh hfirst h1 hw h2⟩
  · intro p hp
    rw [List.length_map]; exact hsize p hp
  · intro t ht
    have : t ∈ (hai 0 ++ hai 1 ++ hai 2 ++ hai 3 ++ [first]).map σ.tile := by
      simpa only [List.map_append, List.map_cons, List.map_nil] using ht
    obtain ⟨u, hu, rfl⟩ := List.mem_map.1 this
    exact (tile_lt hσ).2 (htiles u hu)
  · intro p hp
    exact List.Pairwise.map _ (fun x y hxy e => hxy ((tile_inj hσ).1 e)) (hdist p hp)
  · intro x hx
    obtain ⟨y, hy, rfl⟩ := List.mem_map.1 hx
    have := hwho y hy
    cases y <;> exact this
  · intro p c hc
    obtain ⟨y, hy, e⟩ := List.mem_map.1 hc
    cases y <;> simp only [Act.suits, reduceCtorEq, Act.call.injEq] at e
    obtain ⟨_, rfl⟩ := e
    exact wf_code hσ (hw _ _ hy)
  · intro pre x post e
    obtain ⟨l1, l2, rfl, rfl, e2⟩ := List.map_eq_append_iff.1 e
    obtain ⟨y, l3, rfl, rfl, rfl⟩ := List.map_eq_cons_iff.1 e2
    exact consistent_suits hσ (fun p c hc => hw p c (by simp [hc])) (h1 _ _ _ rfl)

/-- the deal of Proofs/Concrete.lean with characters and bamboo exchanged -/
def dealSwapped : InitAttr := { deal with hai := fun p => .ok ((dealt p).map (Suits.tile ⟨2, 1, 0, id⟩)) }

theorem deal_swapped : DealSuits ⟨2, 1, 0, id⟩ deal dealSwapped where
  seed := by
    intro r h k x y d e
    cases e; rfl
  oya := rfl
  hai := by
    intro p _ l e
    cases e; rfl
  ten := rfl

/-- the discard and the call sample of a round, and of the round with the suits exchanged -/
theorem suits_example (v : Variant) :
    okAnd (processRound noWin farAway ⟨0⟩ deal (logOf (chiActs 120) ++ [.result true (.ok [0, 0, 0, 0])]))
      (fun s => okAnd (buildTensors v s s.halfturns s.encoding_tokens) (fun b => b.2.2.player == [1] && b.2.1.y == [0])) = true ∧
    okAnd (processRound noWin farAway ⟨0⟩ dealSwapped
        (logOf ((chiActs 120).map (Act.suits ⟨2, 1, 0, id⟩)) ++ [.result true (.ok [0, 0, 0, 0])]))
      (fun s => okAnd (buildTensors v s s.halfturns s.encoding_tokens) (fun b => b.2.2.player == [1] && b.2.1.y == [18])) = true := by
  cases v <;> decide +kernel

/-- rounds as in the theorems, with samples, exist -/
example (v : Variant) : ∃ s s' d cc b d' cc' b', SameSuits ⟨2, 1, 0, id⟩ noWin noWin farAway farAway ⟨0⟩ deal dealSwapped (chiActs 120) s s' ∧
    NoPon (chiActs 120) ∧ buildTensors v s s.halfturns s.encoding_tokens = .ok (d, cc, b) ∧
    buildTensors v s' s'.halfturns s'.encoding_tokens = .ok (d', cc', b') ∧ cc.y = [0] ∧ cc'.y = [18] := by
  obtain ⟨s, hs, h1⟩ := okAnd_ok (suits_example v).1
  obtain ⟨⟨d, cc, b⟩, hb, h2⟩ := okAnd_ok h1
  obtain ⟨s', hs', h1'⟩ := okAnd_ok (suits_example v).2
  obtain ⟨⟨d', cc', b'⟩, hb', h2'⟩ := okAnd_ok h1'
  simp only [Bool.and_eq_true, beq_iff_eq] at h2 h2'
  exact ⟨s, s', d, cc, b, d', cc', b', ⟨swap_proper, noWin_suits _, farAway_suits _, deal_swapped,
    by simp [chiActs], accepted_exact hs rfl, accepted_exact hs' rfl⟩, by simp [NoPon, chiActs], hb, hb', h2.2, h2'.2⟩

end MJ
