import Verif.Props.RoundWins
import Verif.Props.RoundLegal
import Verif.Spec.WinTile
/-!
C121: is the winning tile one of the tiles the evaluator is asked about?
-/
namespace MJ
open Code Spec

theorem digitsOf_strings {m p s o : List Nat} {h : Nat → Int} (hs : HandStrings m p s o h) {k : Nat} (hk : k < 34) :
    digitsOf m p s o k = (h k).toNat := by
  obtain ⟨⟨_, a1⟩, ⟨_, a2⟩, ⟨_, a3⟩, ⟨_, a4⟩⟩ := hs
  unfold digitsOf
  by_cases h1 : k < 9
  · rw [if_pos h1, a1, if_pos (by omega)]
    congr 2; omega
  · rw [if_neg h1]
    by_cases h2 : k < 18
    · rw [if_pos h2, a2, if_pos (by omega)]
      congr 2; omega
    · rw [if_neg h2]
      by_cases h3 : k < 27
      · rw [if_pos h3, a3, if_pos (by omega)]
        congr 2; omega
      · rw [if_neg h3, a4, if_pos (by omega)]
        congr 2; omega

/-- the hand determines the four strings -/
theorem handStrings_unique {m p s o m' p' s' o' : List Nat} {h : Nat → Int} (hs : HandStrings m p s o h)
    (hs' : HandStrings m' p' s' o' h) : m = m' ∧ p = p' ∧ s = s' ∧ o = o' := by
  have sort : ∀ l l' : List Nat, ∀ g base n, SuitDigits l g base n → SuitDigits l' g base n → l = l' := by
    intro l l' g base n h h'
    have hp : l.Perm l' := List.perm_iff_count.2 (fun d => by rw [h.2 d, h'.2 d])
    exact hp.eq_of_pairwise (fun a b _ _ h1 h2 => Nat.le_antisymm h1 h2) h.1 h'.1
  exact ⟨sort _ _ _ _ _ hs.1 hs'.1, sort _ _ _ _ _ hs.2.1 hs'.2.1, sort _ _ _ _ _ hs.2.2.1 hs'.2.2.1,
    sort _ _ _ _ _ hs.2.2.2 hs'.2.2.2⟩

theorem mem_firstCopies {m p s o : List Nat} {t : Nat} (ht : t < 136) :
    t ∈ firstCopies m p s o ↔ t % 4 < digitsOf m p s o (t / 4) := by
  unfold firstCopies
  simp only [List.mem_flatMap, List.mem_range, List.mem_map]
  constructor
  · rintro ⟨k, hk, i, hi, rfl⟩
    rw [show (4 * k + min i 3) % 4 = min i 3 by omega, show (4 * k + min i 3) / 4 = k by omega]
    omega
  · intro h
    exact ⟨t / 4, by omega, t % 4, h, by omega⟩

theorem kindCount_map_copies (k j n : Nat) :
    kindCount ((List.range n).map fun i => 4 * k + min i 3) j = if k = j then n else 0 := by
  unfold kindCount
  rw [List.countP_map]
  by_cases h : k = j
  · subst h
    rw [if_pos rfl, List.countP_eq_length.2, List.length_range]
    intro i hi
    simp only [Function.comp, beq_iff_eq]
    omega
  · rw [if_neg h, List.countP_eq_zero]
    intro i hi
    simp only [Function.comp, beq_iff_eq]
    omega

theorem firstCopies_converts : Converts firstCopies := by
  intro m p s o k hk
  unfold firstCopies
  have key : ∀ n, kindCount ((List.range n).flatMap fun k => (List.range (digitsOf m p s o k)).map fun i => 4 * k + min i 3) k =
      if k < n then digitsOf m p s o k else 0 := by
    intro n
    induction n with
    | zero => simp [kindCount]
    | succ n ih =>
      rw [List.range_succ, List.flatMap_append, kindCount_append, ih]
      simp only [List.flatMap_cons, List.flatMap_nil, List.append_nil]
      rw [kindCount_map_copies]
      by_cases h : n = k
      · subst h; simp
      · rw [if_neg h, Nat.add_zero]
        by_cases h1 : k < n
        · rw [if_pos h1, if_pos (by omega)]
        · rw [if_neg h1, if_neg (by omega)]
  rw [key, if_pos hk]

theorem owned_nonneg {est : Estimate} {sh : List Int → Except PyErr Int} {g : GameInfo} {a : InitAttr}
    {c : RoundCfg} {s0 : RoundSt} (hi : initRound est sh g a = .ok (c, s0)) {hai : Nat → List Nat} {first : Nat}
    (hd : a.Deals hai first) {acts : List Act} {s : RoundSt} (hr : Reached c s0 acts s) {p k : Nat} (hp : p < 4)
    (hk : k < 34) : 0 ≤ owned hai acts p k := by
  rw [← full_owned hi hd hr p k hp hk, C57_full_hands hi hr p k]
  have := hand_nonneg hi hr p k (by omega)
  omega

theorem owned_draw (hai : Nat → List Nat) (acts : List Act) (p t k : Nat) :
    owned hai (acts ++ [.draw p t]) p k = owned hai acts p k + if t / 4 = k then 1 else 0 := by
  unfold owned
  simp only [collect_snoc, Act.drawn, Act.called, Act.discarded, kindCount_append, if_true, if_pos, List.append_nil]
  by_cases h : t / 4 = k <;> simp [kindCount, h] <;> omega

/-- what holds of the winning tile in every question about a hand that has `n` tiles of its kind -/
theorem winTile_kind {q : Query} {h : Nat → Int} (hs : HandStrings q.man q.pin q.sou q.honors h) {t : Nat} (ht : t < 136)
    (hq : q.win_tile = t) (h0 : 0 < h (t / 4)) {conv : List Nat → List Nat → List Nat → List Nat → List Nat}
    (hc : Converts conv) :
    (∃ u ∈ Query.tilesBy conv q, u / 4 = q.win_tile / 4) ∧
    (Query.Complete firstCopies q ↔ ((t % 4 : Nat) : Int) < h (t / 4)) := by
  have hk : t / 4 < 34 := by omega
  constructor
  · have h1 := hc q.man q.pin q.sou q.honors (t / 4) hk
    rw [digitsOf_strings hs hk] at h1
    have h2 : 0 < kindCount (Query.tilesBy conv q) (t / 4) := by
      show 0 < kindCount (conv q.man q.pin q.sou q.honors) (t / 4)
      rw [h1]; omega
    obtain ⟨u, hu, hu'⟩ := List.countP_pos_iff.1 h2
    exact ⟨u, hu, by rw [hq]; exact beq_iff_eq.1 hu'⟩
  · unfold Query.Complete Query.tilesBy
    rw [hq, mem_firstCopies ht, digitsOf_strings hs hk]
    omega

/-- C121, the part that holds, for a draw: whichever way the strings are turned into tiles, among the tiles the evaluator
is asked about there is one of the winning tile's kind; if it is given the first copies of each kind, the winning tile
itself is there exactly if its copy number is less than the number of tiles of its kind the player has. -/
theorem C121_draw_partial {est : Estimate} {sh : List Int → Except PyErr Int} {g : GameInfo} {a : InitAttr}
    {c : RoundCfg} {s0 : RoundSt} (hi : initRound est sh g a = .ok (c, s0)) {hai : Nat → List Nat} {first : Nat}
    (hd : a.Deals hai first)
    {acts : List Act} {p t : Nat} {s s' : RoundSt} (hr : Reached c s0 acts s) (hr' : Reached c s0 (acts ++ [.draw p t]) s')
    {ms : List LogMeld} (hms : CallsOf acts p ms) {conv : List Nat → List Nat → List Nat → List Nat → List Nat}
    (hc : Converts conv) :
    ∃ q o e ag r n, s'.halfturns = s.halfturns ++ [.during p o e ag r n] ∧
      ((est q = .ok true ∧ ag = [⟨p, false⟩]) ∨ (est q = .ok false ∧ ag = [])) ∧ q.win_tile = t ∧
      (∃ u ∈ Query.tilesBy conv q, u / 4 = q.win_tile / 4) ∧
      (Query.Complete firstCopies q ↔ ((t % 4 : Nat) : Int) < owned hai (acts ++ [.draw p t]) p (t / 4)) := by
  have hd' := hd
  obtain ⟨hhai, r0, h0, k0, x, y, hseed⟩ := hd
  obtain ⟨q, o, e, ag, r, n, h1, h2, h3, h4, _⟩ := C110_own_win hi hhai hseed hr hr' hms
  obtain ⟨s1, s2, g1, he, _⟩ := Reached.at (post := []) hr'
  have hpt : p < 4 ∧ t < 136 := by
    cases he with
    | draw hp e => exact ⟨hp, e.tile_lt⟩
  refine ⟨q, o, e, ag, r, n, h1, h2, h4, winTile_kind h3 hpt.2 h4 ?_ hc⟩
  have := owned_nonneg hi hd' hr (k := t / 4) hpt.1 (by omega)
  rw [owned_draw, if_pos rfl]
  omega

/-- C121, the part that holds, for a discard -/
theorem C121_discard_partial {est : Estimate} {sh : List Int → Except PyErr Int} {g : GameInfo} {a : InitAttr}
    {c : RoundCfg} {s0 : RoundSt} (hi : initRound est sh g a = .ok (c, s0)) {hai : Nat → List Nat} {first : Nat}
    (hd : a.Deals hai first)
    {acts : List Act} {p t : Nat} {s s' : RoundSt} (hr : Reached c s0 acts s)
    (hr' : Reached c s0 (acts ++ [.discard p t]) s') {conv : List Nat → List Nat → List Nat → List Nat → List Nat}
    (hc : Converts conv) :
    ∃ o e ag n, s'.halfturns = s.halfturns ++ [.discard p o e t, .post p o e ag n] ∧ ∀ w < 4, w ≠ p →
      ¬ Threw acts w (t / 4) → ∀ ms, CallsOf acts w ms → ∃ q,
        ((est q = .ok true ∧ ag[w]? = some [⟨w, false⟩]) ∨ (est q = .ok false ∧ ag[w]? = some [])) ∧ q.win_tile = t ∧
        (∃ u ∈ Query.tilesBy conv q, u / 4 = q.win_tile / 4) ∧
        (Query.Complete firstCopies q ↔ ((t % 4 : Nat) : Int) ≤ owned hai acts w (t / 4)) := by
  have hd' := hd
  obtain ⟨hhai, r0, h0, k0, x, y, hseed⟩ := hd
  obtain ⟨o, e, ag, n, h1, h2⟩ := C111_ron hi hhai hseed hr hr'
  obtain ⟨s1, s2, g1, he, _⟩ := Reached.at (post := []) hr'
  have ht : t < 136 := by
    cases he with
    | discard hp e => exact e.tile_lt
  refine ⟨o, e, ag, n, h1, fun w hw hwp hth ms hms => ?_⟩
  obtain ⟨q, k1, k2, k3, _⟩ := (h2 w hw).2 hwp hth ms hms
  have hn := owned_nonneg hi hd' hr (k := t / 4) hw (by omega)
  have := winTile_kind k2 ht k3 (by simp only [if_true]; omega) hc
  refine ⟨q, k1, k3, this.1, this.2.trans ?_⟩
  simp only [if_true]
  omega

/-- the hand 111123456789m 11p as kinds: a triplet, three sequences and a pair -/
def readyHand : List (List Nat) := [[0, 0, 0], [0, 1, 2], [3, 4, 5], [6, 7, 8], [9, 9]]

theorem drawWin_legal {t : Nat} (ht : t = 37 ∨ t = 38 ∨ t = 39) : LegalRound dealtKan 132 [.draw 0 t] := by
  have h0 : LegalRound dealtKan 132 [] := by intro pre x post e; simp at e
  rcases ht with rfl | rfl | rfl <;> exact legal_snoc h0 ⟨by decide, by decide, by decide⟩

theorem drawWin_owned {t : Nat} (ht : t = 37 ∨ t = 38 ∨ t = 39) :
    ∀ k < 34, owned dealtKan [.draw 0 t] 0 k = (readyHand.flatten.count k : Nat) := by
  rcases ht with rfl | rfl | rfl <;> decide

/-- two tiles cannot cover three copies -/
theorem copy_missing {l : List Nat} (h : kindCount l 9 = 2) : ∃ t, (t = 37 ∨ t = 38 ∨ t = 39) ∧ t ∉ l := by
  apply Classical.byContradiction
  intro hn
  have hin : ∀ t, (t = 37 ∨ t = 38 ∨ t = 39) → t ∈ l := fun t ht =>
    Classical.byContradiction fun h => hn ⟨t, ht, h⟩
  have hs : [37, 38, 39].Subperm (l.filter (fun t => t / 4 == 9)) := by
    refine List.subperm_of_subset (by decide) ?_
    intro t ht
    simp only [List.mem_cons, List.not_mem_nil, or_false] at ht
    refine List.mem_filter.2 ⟨hin t ht, ?_⟩
    rcases ht with rfl | rfl | rfl <;> rfl
  have := hs.length_le
  rw [← List.countP_eq_length_filter] at this
  unfold kindCount at h
  rw [h] at this
  simp at this

/-- C121 fails: whichever way the strings are turned into tiles, and whatever the evaluator, as long as it answers and
declares a win only if the winning tile is one of the tiles it was given, there is a legally played round in which a
player draws the tile that completes a triplet, three sequences and a pair, and is not offered the win. -/
theorem C121_violated {conv : List Nat → List Nat → List Nat → List Nat → List Nat} (hc : Converts conv) {est : Estimate}
    (he : ∀ q, ∃ b, est q = .ok b) (hins : Insists conv est) :
    ∃ t s o e r n, LegalRound dealtKan 132 [.draw 0 t] ∧
      (∀ k < 34, owned dealtKan [.draw 0 t] 0 k = (readyHand.flatten.count k : Nat)) ∧
      processRound est farAway ⟨0⟩ dealKan (logOf [.draw 0 t] ++ [.result false (.ok [])]) = .ok s ∧
      s.halfturns = [.during 0 o e [] r n] := by
  have h37 := (C27_strings fun k => (readyHand.flatten.count k : Nat)).1
  obtain ⟨t, ht, hmiss⟩ := copy_missing (l := conv _ _ _ _)
    ((hc _ _ _ _ 9 (by omega)).trans ((digitsOf_strings h37 (k := 9) (by omega)).trans (by decide)))
  have hl := drawWin_legal ht
  have how := drawWin_owned ht
  obtain ⟨s, hs⟩ := C115_accepted he (fun _ => ⟨_, rfl⟩ : ∀ l, ∃ n, farAway l = .ok n) ⟨0⟩ (a := dealKan) rfl rfl rfl (by decide) dealKan_deals
    dealKan_fair hl (rs := [.result false (.ok [])]) (by simp) (by simp)
  obtain ⟨c, s0, hi, hr⟩ := accepted_exact (evs := logOf [.draw 0 t]) (acts := [.draw 0 t]) hs rfl
  obtain ⟨hhai, r0, h0, k0, x, y, hseed⟩ := dealKan_deals
  obtain ⟨q, o, e, ag, r, n, h1, h2, h3, h4, _⟩ := C110_own_win (acts := []) (ms := []) hi hhai hseed .start hr
    ⟨rfl, by simp, by intro k; simp⟩
  have hz : s0.halfturns = [] := by
    obtain ⟨d⟩ := initRound_ok hi
    rw [congrArg RoundSt.halfturns d.state_eq]
  have hag : ag = [] := by
    rcases h2 with ⟨hy, _⟩ | ⟨_, hy⟩
    · exfalso
      have hin := hins q hy
      obtain ⟨u1, u2, u3, u4⟩ := handStrings_unique h3 (handStrings_congr (fun k hk => (how k hk).symm) h37)
      unfold Query.Complete Query.tilesBy at hin
      rw [h4, u1, u2, u3, u4] at hin
      exact hmiss hin
    · exact hy
  subst hag
  exact ⟨t, s, o, e, r, n, hl, how, hs, by rw [h1, hz]; rfl⟩

/-- there are such converters and evaluators, and with first copies the third and the fourth copy are missed -/
example : Converts firstCopies ∧ Insists firstCopies (fun q => .ok (decide (q.win_tile ∈ Query.tilesBy firstCopies q))) ∧
    37 ∈ firstCopies [1, 1, 1, 1, 2, 3, 4, 5, 6, 7, 8, 9] [1, 1] [] [] ∧
    38 ∉ firstCopies [1, 1, 1, 1, 2, 3, 4, 5, 6, 7, 8, 9] [1, 1] [] [] := by
  refine ⟨firstCopies_converts, ?_, by decide, by decide⟩
  intro q h
  have h' : decide (q.win_tile ∈ Query.tilesBy firstCopies q) = true := Except.ok.inj h
  exact @of_decide_eq_true _ (inferInstanceAs (Decidable (q.win_tile ∈ Query.tilesBy firstCopies q))) h'

end MJ
