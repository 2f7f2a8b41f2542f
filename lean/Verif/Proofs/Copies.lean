import Verif.Proofs.CopyCodes
import Verif.Proofs.RoundStep
import Verif.Proofs.Rows
import Mathlib.Algebra.BigOperators.Group.List.Basic
/-!
Renaming copies: the two logs are processed in lockstep.
-/
namespace MJ
open Code Spec

theorem Spec.SameOutcome.bind {α β γ δ : Type} {R : α → β → Prop} {S : γ → δ → Prop} {x : Except PyErr α} {y : Except PyErr β}
    {f : α → Except PyErr γ} {g : β → Except PyErr δ} (h : SameOutcome R x y)
    (hfg : ∀ a b, R a b → SameOutcome S (f a) (g b)) : SameOutcome S (x >>= f) (y >>= g) := by
  cases h with
  | ok h => exact hfg _ _ h
  | error e => exact .error e

/-- the first computation is the same one -/
theorem Spec.SameOutcome.bind_same {α γ δ : Type} {S : γ → δ → Prop} (x : Except PyErr α)
    {f : α → Except PyErr γ} {g : α → Except PyErr δ} (hfg : ∀ a, x = .ok a → SameOutcome S (f a) (g a)) :
    SameOutcome S (x >>= f) (x >>= g) := by
  cases x with
  | ok a => exact hfg a rfl
  | error e => exact .error e

variable {π : Nat → Nat}

/-- the state after the renamed log; `h` and `m` are its tables of held tiles and of melds -/
def stCopies (π : Nat → Nat) (s : RoundSt) (h : Nat → Nat → Int) (m : Nat → List Naki) : RoundSt :=
  { s with
    hands := h, melds := m, doras := s.doras.map π, acquired := s.acquired.map π
    stateObj := s.stateObj.map (objCopies π), halfturns := s.halfturns.map (turnCopies π) }

/-- the canonical codes of the kans offered in the player's own turn name no source -/
def SourceFree : HalfTurn → Prop
  | .during _ _ _ _ _ n => ∀ d ∈ n, d.naki.convenient_naki_code % 4 = 0
  | _ => True

/-- the copies that the program reads as kinds stay where they are -/
def FixesKinds (π : Nat → Nat) : Prop := ∀ t < 34, π t = t

structure CopyInv (π : Nat → Nat) (s : RoundSt) (h : Nat → Nat → Int) (m : Nat → List Naki) : Prop where
  hands : ∀ p t, h p (π t) = s.hands p t
  melds : ∀ p, AllPairs MeldSame (s.melds p) (m p)
  pons : FixesKinds π ∨ ∀ p, ∀ n ∈ s.melds p, is_pon n.naki_code = false
  own : ∀ t ∈ s.halfturns, SourceFree t

/-- the two states belong together -/
def StCopies (π : Nat → Nat) (s s' : RoundSt) : Prop := ∃ h m, s' = stCopies π s h m ∧ CopyInv π s h m

/-! ### tiles -/

theorem checkTile_copies (hπ : Copies π) (t : Nat) : checkTile (π t) = checkTile t := by
  unfold checkTile
  have := hπ.lt_iff 34 t
  simp only [show 4 * 34 = 136 from rfl] at this
  simp only [this]

theorem checkTiles_copies (hπ : Copies π) {l l' : List Nat} (h : l'.Perm (l.map π)) : checkTiles l' = checkTiles l := by
  unfold checkTiles
  have : (l'.all (fun t => decide (t < 136))) = (l.all (fun t => decide (t < 136))) := by
    rw [h.all_eq, List.all_map]
    congr 1
    funext t
    have := hπ.lt_iff 34 t
    simp only [show 4 * 34 = 136 from rfl] at this
    simp [this]
  rw [this]

theorem cnt_copies (hπ : Copies π) {l l' : List Nat} (h : l'.Perm (l.map π)) (k : Nat) : cnt l' k = cnt l k := by
  unfold cnt
  rw [h.countP_eq, List.countP_map]
  congr 2
  funext t
  simp [Function.comp, hπ.slots]

/-- the exposure loop in closed form -/
theorem expose_eq (player : Nat) : ∀ (l : List Nat) (h ht : Nat → Nat → Int),
    expose player l (h, ht) = if l.Nodup ∧ ∀ e ∈ l, h player e = 1 then
      .ok (fun p t => if p = player ∧ t ∈ l then 0 else h p t, fun p k => if p = player then ht p k - cnt l k else ht p k)
    else .error .assertion
  | [], h, ht => by
    simp only [expose, List.nodup_nil, List.not_mem_nil, false_imp_iff, implies_true, and_self, if_true, and_false, if_false,
      cnt_nil]
    congr 2
    funext p k
    split <;> simp
  | e :: l, h, ht => by
    unfold expose
    by_cases he : h player e = 1
    · rw [if_pos he, expose_eq player l]
      have hc : (l.Nodup ∧ ∀ x ∈ l, addRow h player [e] (-1) player x = 1) ↔
          ((e :: l).Nodup ∧ ∀ x ∈ e :: l, h player x = 1) := by
        simp only [List.nodup_cons, List.mem_cons, forall_eq_or_imp, addRow, setAt, addAt, if_true, List.not_mem_nil, or_false]
        constructor
        · rintro ⟨h1, h2⟩
          have hn : e ∉ l := by
            intro hm
            have := h2 e hm
            simp [he] at this
          refine ⟨⟨hn, h1⟩, he, fun x hx => ?_⟩
          have := h2 x hx
          rwa [if_neg (fun q : x = e => hn (q ▸ hx))] at this
        · rintro ⟨⟨h1, h2⟩, -, h3⟩
          refine ⟨h2, fun x hx => ?_⟩
          rw [if_neg (fun q : x = e => h1 (q ▸ hx))]
          exact h3 x hx
      by_cases hq : (e :: l).Nodup ∧ ∀ x ∈ e :: l, h player x = 1
      · rw [if_pos hq, if_pos (hc.2 hq)]
        congr 2
        · funext p t
          by_cases hp : p = player
          · subst hp
            by_cases ht : t = e
            · subst ht
              simp [addRow, setAt, addAt, he]
            · simp [addRow, setAt, addAt, ht]
          · simp [addRow, setAt, hp]
        · funext p k
          by_cases hp : p = player
          · subst hp
            simp only [if_true, addRow, setAt, addAt, cnt_cons]
            split <;> push_cast <;> omega
          · simp [addRow, setAt, hp]
      · rw [if_neg hq, if_neg (fun x => hq (hc.1 x))]
    · rw [if_neg he, if_neg (fun x => he (x.2 e (by simp)))]

/-- the exposure loop on renamed tiles -/
theorem expose_copies (hπ : Copies π) {l l' : List Nat} (hl : l'.Perm (l.map π)) (player : Nat) {h h' : Nat → Nat → Int}
    (ht : Nat → Nat → Int) (hh : ∀ p t, h' p (π t) = h p t) :
    SameOutcome (fun r r' => (∀ p t, r'.1 p (π t) = r.1 p t) ∧ r'.2 = r.2) (expose player l (h, ht)) (expose player l' (h', ht)) := by
  rw [expose_eq, expose_eq]
  have hc : (l'.Nodup ∧ ∀ e ∈ l', h' player e = 1) ↔ (l.Nodup ∧ ∀ e ∈ l, h player e = 1) := by
    rw [hl.nodup_iff, List.nodup_map_iff (fun _ _ e => hπ.inj _ _ e)]
    simp only [hl.mem_iff, List.mem_map, forall_exists_index, and_imp, forall_apply_eq_imp_iff₂, hh]
  by_cases hq : l.Nodup ∧ ∀ e ∈ l, h player e = 1
  · rw [if_pos hq, if_pos (hc.2 hq)]
    refine .ok ⟨fun p t => ?_, ?_⟩
    · have : π t ∈ l' ↔ t ∈ l := by
        rw [hl.mem_iff, List.mem_map]
        constructor
        · rintro ⟨x, hx, e⟩
          rwa [← hπ.inj _ _ e]
        · exact fun h => ⟨t, h, rfl⟩
      simp only [this, hh]
    · simp only [cnt_copies hπ hl]
  · rw [if_neg hq, if_neg (fun x => hq (hc.1 x))]
    exact .error _

/-! ### the evaluators -/

theorem melds_copies {l l' : List Naki} (h : AllPairs MeldSame l l') :
    nakisToMelds (l'.map (·.naki_code)) = nakisToMelds (l.map (·.naki_code)) := by
  induction h with
  | nil => rfl
  | cons h1 _ ih => simp only [List.map_cons, nakisToMelds, h1.arg, ih]

variable {c : RoundCfg}

theorem ronStep_copies (hest : CopyBlind π c.estimate) {s : RoundSt} {h : Nat → Nat → Int} {m : Nat → List Naki}
    (hm : ∀ p, AllPairs MeldSame (s.melds p) (m p)) (player : Nat) (b : Bool) (su : Nat → Nat → Int) (t i : Nat) (ch : Bool)
    (rn : Nat → Bool) (p : Nat) (st : (Nat → Nat → Int) × List (Option AgariDecision)) :
    ronStep c.estimate player (winArgs c (stCopies π s h m) b) su (π t) i ch rn p st =
      ronStep c.estimate player (winArgs c s b) su t i ch rn p st := by
  unfold ronStep
  split
  · rfl
  split
  · rfl
  · have e : nakisToMelds ((winArgs c (stCopies π s h m) b).naki_list p) = nakisToMelds ((winArgs c s b).naki_list p) :=
      melds_copies (hm p)
    rw [e]
    dsimp only
    cases nakisToMelds ((winArgs c s b).naki_list p) with
    | error e => rfl
    | ok ms =>
      have key : ∀ x y z w cfg, c.estimate ⟨x, y, z, w, π t, ms, s.doras.map π, cfg⟩ = c.estimate ⟨x, y, z, w, t, ms, s.doras, cfg⟩ :=
        fun x y z w cfg => hest ⟨x, y, z, w, t, ms, s.doras, cfg⟩
      dsimp only [winArgs, stCopies]
      rw [key]

theorem ron_copies (hπ : Copies π) (hest : CopyBlind π c.estimate) {s : RoundSt} {h : Nat → Nat → Int} {m : Nat → List Naki}
    (hm : ∀ p, AllPairs MeldSame (s.melds p) (m p)) (player : Nat) (full : Nat → Nat → Int) (b : Bool) (su : Nat → Nat → Int)
    (t : Nat) (ch : Bool) (rn : Nat → Bool) :
    evaluate_ron c.estimate player full (winArgs c (stCopies π s h m) b) su (π t) ch rn =
      evaluate_ron c.estimate player full (winArgs c s b) su t ch rn := by
  unfold evaluate_ron
  have := hπ.lt_iff 34 t
  simp only [show 4 * 34 = 136 from rfl] at this
  simp only [this, hπ.slots]
  split
  · generalize (tile2idx t).headD 0 = i
    generalize (full, ([none, none, none, none] : List (Option AgariDecision))) = st
    generalize [0, 1, 2, 3] = l
    induction l generalizing st with
    | nil => rfl
    | cons p ps ih =>
      simp only [ronLoop, ronStep_copies hest hm, ih]
  · rfl

theorem tsumo_copies (hest : CopyBlind π c.estimate) {s : RoundSt} {h : Nat → Nat → Int} {m : Nat → List Naki}
    (hm : ∀ p, AllPairs MeldSame (s.melds p) (m p)) (player : Nat) (full : Nat → Nat → Int) (b : Bool)
    (t : Nat) (r e q : Bool) :
    evaluate_tsumo c.estimate player full (winArgs c (stCopies π s h m) b) (π t) r e q =
      evaluate_tsumo c.estimate player full (winArgs c s b) t r e q := by
  unfold evaluate_tsumo
  have e : nakisToMelds ((winArgs c (stCopies π s h m) b).naki_list player) = nakisToMelds ((winArgs c s b).naki_list player) :=
    melds_copies (hm player)
  rw [e]
  dsimp only
  cases nakisToMelds ((winArgs c s b).naki_list player) with
  | error e => rfl
  | ok ms =>
    have key : ∀ x y z w cfg, c.estimate ⟨x, y, z, w, π t, ms, s.doras.map π, cfg⟩ = c.estimate ⟨x, y, z, w, t, ms, s.doras, cfg⟩ :=
      fun x y z w cfg => hest ⟨x, y, z, w, t, ms, s.doras, cfg⟩
    dsimp only [winArgs, stCopies]
    rw [key]

/-! ### half-turns -/

theorem curr_copies (s : RoundSt) (h : Nat → Nat → Int) (m : Nat → List Naki) :
    (stCopies π s h m).curr = s.curr.map (turnCopies π) := by
  show s.curr_halfturn.bind (fun i => (s.halfturns.map (turnCopies π))[i]?) = (s.curr_halfturn.bind (fun i => s.halfturns[i]?)).map _
  cases s.curr_halfturn with
  | none => rfl
  | some i => simp

theorem setCurr_copies (s : RoundSt) (h : Nat → Nat → Int) (m : Nat → List Naki) (t : HalfTurn) :
    (stCopies π s h m).setCurr (turnCopies π t) = stCopies π (s.setCurr t) h m := by
  unfold RoundSt.setCurr stCopies
  dsimp only
  cases s.curr_halfturn with
  | none => rfl
  | some i => simp only [List.map_set]

theorem CopyInv.setCurr {s : RoundSt} {h : Nat → Nat → Int} {m : Nat → List Naki} (hi : CopyInv π s h m) {t : HalfTurn}
    (ht : SourceFree t) : CopyInv π (s.setCurr t) h m := by
  refine ⟨hi.hands, hi.melds, hi.pons, ?_⟩
  unfold RoundSt.setCurr
  dsimp only
  cases s.curr_halfturn with
  | none => exact hi.own
  | some i =>
    intro x hx
    rcases List.mem_or_eq_of_mem_set hx with hx | rfl
    · exact hi.own x hx
    · exact ht

theorem CopyInv.curr {s : RoundSt} {h : Nat → Nat → Int} {m : Nat → List Naki} (hi : CopyInv π s h m) {t : HalfTurn}
    (ht : s.curr = some t) : SourceFree t := by
  unfold RoundSt.curr at ht
  cases hc : s.curr_halfturn with
  | none => rw [hc] at ht; cases ht
  | some i =>
    rw [hc] at ht
    exact hi.own t (List.mem_of_getElem? ht)

theorem markNaki_codes (k : Nat) : ∀ n : List NakiDecision, (∀ d ∈ n, d.naki.convenient_naki_code % 4 = 0) →
    ∀ d ∈ markNaki k n, d.naki.convenient_naki_code % 4 = 0
  | [], _, d, hd => by simp [markNaki] at hd
  | x :: n, h, d, hd => by
    unfold markNaki at hd
    split at hd
    · rcases List.mem_cons.1 hd with rfl | hd
      · exact h x (by simp)
      · exact h d (by simp [hd])
    · rcases List.mem_cons.1 hd with rfl | hd
      · exact h d (by simp)
      · exact markNaki_codes k n (fun y hy => h y (by simp [hy])) d hd

theorem markNaki_none (k : Nat) (hk : k % 4 ≠ 0) : ∀ n : List NakiDecision, (∀ d ∈ n, d.naki.convenient_naki_code % 4 = 0) →
    markNaki k n = n
  | [], _ => rfl
  | x :: n, h => by
    unfold markNaki
    rw [if_neg (fun e : x.naki.convenient_naki_code = k => hk (e ▸ h x (by simp))), markNaki_none k hk n (fun y hy => h y (by simp [hy]))]

theorem nakiMark_copies {s : RoundSt} {h : Nat → Nat → Int} {m : Nat → List Naki} (hi : CopyInv π s h m) {n n' : Naki}
    (ha : is_ankan n'.naki_code = is_ankan n.naki_code) (hk : is_kakan n'.naki_code = is_kakan n.naki_code)
    (hc : n'.convenient_naki_code = n.convenient_naki_code ∨ (is_kakan n.naki_code = true ∧ n.convenient_naki_code % 4 ≠ 0 ∧
      n'.convenient_naki_code % 4 ≠ 0)) :
    SameOutcome (fun a b => b = stCopies π a h m ∧ CopyInv π a h m ∧ a.melds = s.melds)
      (nakiMark s n) (nakiMark (stCopies π s h m) n') := by
  unfold nakiMark
  rw [ha, hk, curr_copies]
  split
  · cases hcur : s.curr with
    | none => exact .error _
    | some t =>
      have ho := hi.curr hcur
      cases t with
      | during p o e a r ns =>
        have hmk : markNaki n'.convenient_naki_code ns = markNaki n.convenient_naki_code ns := by
          rcases hc with hc | ⟨-, h1, h2⟩
          · rw [hc]
          · rw [markNaki_none _ h1 ns ho, markNaki_none _ h2 ns ho]
        have := setCurr_copies (π := π) s h m (.during p o e a r (markNaki n.convenient_naki_code ns))
        refine .ok ⟨?_, hi.setCurr (markNaki_codes _ ns ho), rfl⟩
        rw [hmk]
        exact this
      | discard => exact .error _
      | post => exact .error _
  · next hb =>
    have hc' : n'.convenient_naki_code = n.convenient_naki_code := by
      rcases hc with hc | ⟨h1, -⟩
      · exact hc
      · rw [h1] at hb; simp at hb
    rw [hc']
    cases hcur : s.curr with
    | none => exact .error _
    | some t =>
      cases t with
      | during => exact .error _
      | discard => exact .error _
      | post p o e a ns =>
        have := setCurr_copies (π := π) s h m (.post p o e a (ns.map (markNaki n.convenient_naki_code)))
        exact .ok ⟨this, hi.setCurr (t := .post p o e a (ns.map (markNaki n.convenient_naki_code))) trivial, rfl⟩

/-! ### the branches of the loop -/

theorem stepDora_copies (hπ : Copies π) {s : RoundSt} {h : Nat → Nat → Int} {m : Nat → List Naki} (hi : CopyInv π s h m)
    (x : Except PyErr Nat) : SameOutcome (StCopies π) (stepDora s x) (stepDora (stCopies π s h m) (x.map π)) := by
  cases x with
  | error e => exact .error e
  | ok t =>
    show SameOutcome _ (checkTile t >>= _) (checkTile (π t) >>= _)
    rw [checkTile_copies hπ]
    refine .bind_same _ fun _ _ => ?_
    rw [hπ.slots]
    refine .bind_same _ fun tk _ => ?_
    refine .ok ⟨h, m, ?_, hi.hands, hi.melds, hi.pons, hi.own⟩
    unfold stCopies
    simp only [List.map_append, List.map_cons, List.map_nil]

theorem reachDeclare_copies {s : RoundSt} {h : Nat → Nat → Int} {m : Nat → List Naki} (hi : CopyInv π s h m) :
    SameOutcome (StCopies π) (reachDeclare s) (reachDeclare (stCopies π s h m)) := by
  unfold reachDeclare
  rw [curr_copies]
  cases hcur : s.curr with
  | none => exact .error _
  | some t =>
    have ho := hi.curr hcur
    cases t with
    | during p o e a r ns =>
      show SameOutcome _ (if s.acquired.isSome then _ else _) (if (s.acquired.map π).isSome then _ else _)
      rw [Option.isSome_map]
      split
      · have := setCurr_copies (π := π) s h m (.during p o e a (markReach r) ns)
        exact .ok ⟨h, m, this, hi.setCurr (t := .during p o e a (markReach r) ns) ho⟩
      · exact .error _
    | discard => exact .error _
    | post => exact .error _

theorem reachAccept_copies {s : RoundSt} {h : Nat → Nat → Int} {m : Nat → List Naki} (hi : CopyInv π s h m) (player : Nat) :
    SameOutcome (StCopies π) (reachAccept s player) (reachAccept (stCopies π s h m) player) := by
  unfold reachAccept
  rw [curr_copies]
  cases hcur : s.curr with
  | none => exact .error _
  | some t =>
    cases t with
    | during => exact .error _
    | discard => exact .error _
    | post p o e a ns =>
      show SameOutcome _ (checkSeat player >>= _) (checkSeat player >>= _)
      refine .bind_same _ fun _ _ => ?_
      refine .bind_same (payStick s.scores player) fun sc _ => ?_
      refine .bind_same _ fun tk _ => ?_
      exact .ok ⟨h, m, rfl, hi.hands, hi.melds, hi.pons, hi.own⟩

theorem stepReach_copies {s : RoundSt} {h : Nat → Nat → Int} {m : Nat → List Naki} (hi : CopyInv π s h m)
    (w : Except PyErr Nat) (o : Except PyErr Bool) :
    SameOutcome (StCopies π) (stepReach s w o) (stepReach (stCopies π s h m) w o) := by
  unfold stepReach
  refine .bind_same (pyAssert s.curr_halfturn.isSome) fun _ _ => ?_
  refine .bind_same _ fun player _ => ?_
  refine .bind_same _ fun one _ => ?_
  cases one
  · refine .bind (reachAccept_copies hi player) ?_
    rintro a b ⟨h, m, rfl, hi⟩
    refine .bind_same _ fun _ _ => ?_
    exact .ok ⟨h, m, rfl, hi.hands, hi.melds, hi.pons, hi.own⟩
  · refine .bind (reachDeclare_copies hi) ?_
    rintro a b ⟨h, m, rfl, hi⟩
    refine .bind_same _ fun _ _ => ?_
    exact .ok ⟨h, m, rfl, hi.hands, hi.melds, hi.pons, hi.own⟩

theorem nakiTiles_copies (hπ : Copies π) {s : RoundSt} {h : Nat → Nat → Int} {m : Nat → List Naki} (hi : CopyInv π s h m)
    (player : Nat) {l l' : List Nat} (hl : l'.Perm (l.map π)) (a : Option Nat) :
    SameOutcome (StCopies π) (nakiTiles s player l a) (nakiTiles (stCopies π s h m) player l' (a.map π)) := by
  unfold nakiTiles
  rw [checkTiles_copies hπ hl]
  refine .bind_same _ fun _ _ => ?_
  have hsee : ∀ f, seeExposed l' f = seeExposed l f := by
    intro f
    funext k
    rw [seeExposed_eq, seeExposed_eq, cnt_copies hπ hl]
  refine .bind (expose_copies hπ hl player s.hand_tensors hi.hands) ?_
  rintro ⟨r1, r2⟩ ⟨r1', r2'⟩ ⟨h1, h2⟩
  dsimp only at h1 h2
  subst h2
  cases a with
  | none =>
    refine .ok ⟨r1', m, ?_, h1, hi.melds, hi.pons, hi.own⟩
    simp only [hsee]
    rfl
  | some a =>
    show SameOutcome _ (checkTile a >>= _) (checkTile (π a) >>= _)
    rw [checkTile_copies hπ]
    refine .bind_same _ fun _ _ => ?_
    refine .ok ⟨r1', m, ?_, h1, hi.melds, hi.pons, hi.own⟩
    simp only [hsee, hπ.slots]
    rfl

theorem isPonOf_same {x x' : Naki} (h : MeldSame x x') (k : Nat) : isPonOf k x' = isPonOf k x := by
  unfold isPonOf
  rw [h.pon]
  cases hp : is_pon x.naki_code
  · rfl
  · rw [(h.kind hp).1, (h.kind hp).2.1]

theorem removePon_same {l l' : List Naki} (h : AllPairs MeldSame l l') (k : Nat) :
    AllPairs MeldSame (removePon k l) (removePon k l') := by
  induction h with
  | nil => exact .nil
  | cons h1 h2 ih =>
    unfold removePon
    rw [isPonOf_same h1]
    split
    · exact h2
    · exact .cons h1 ih

theorem removePon_sub {k : Nat} {x : Naki} : ∀ {l : List Naki}, x ∈ removePon k l → x ∈ l
  | [], h => h
  | y :: l, h => by
    unfold removePon at h
    split at h
    · exact List.mem_cons_of_mem _ h
    · rcases List.mem_cons.1 h with rfl | h
      · simp
      · exact List.mem_cons_of_mem _ (removePon_sub h)

theorem setAt_pairs {f g : Nat → List Naki} (h : ∀ p, AllPairs MeldSame (f p) (g p)) (player : Nat) {l l' : List Naki}
    (hl : AllPairs MeldSame l l') : ∀ p, AllPairs MeldSame (setAt f player l p) (setAt g player l' p) := by
  intro p
  unfold setAt
  split
  · exact hl
  · exact h p

theorem chankan_copies (hπ : Copies π) (hest : CopyBlind π c.estimate) {s : RoundSt} {h : Nat → Nat → Int} {m : Nat → List Naki}
    (hi : CopyInv π s h m) (player t : Nat) (o : StateObj) :
    SameOutcome (StCopies π) (chankan c s player [t] o) (chankan c (stCopies π s h m) player [π t] (objCopies π o)) := by
  unfold chankan
  simp only [List.headD_cons, hπ.kind]
  have hi' : CopyInv π { s with melds := setAt s.melds player (removePon (t / 4) (s.melds player)) } h
      (setAt m player (removePon (t / 4) (m player))) := by
    refine ⟨hi.hands, setAt_pairs hi.melds player (removePon_same (hi.melds player) _), ?_, hi.own⟩
    rcases hi.pons with hf | hf
    · exact .inl hf
    · refine .inr fun p x hx => ?_
      simp only [setAt] at hx
      split at hx
      · exact hf player x (removePon_sub hx)
      · exact hf p x hx
  have hr := ron_copies (h := h) hπ hest hi'.melds player s.hand_tensors_full false s.sutehai_tensors t true (fun _ => false)
  refine .bind (R := fun a b => b = a) ?_ ?_
  · show SameOutcome _ _ (evaluate_ron c.estimate player s.hand_tensors_full
      (winArgs c (stCopies π { s with melds := setAt s.melds player (removePon (t / 4) (s.melds player)) } h
        (setAt m player (removePon (t / 4) (m player)))) false) s.sutehai_tensors (π t) true (fun _ => false))
    rw [hr]
    generalize evaluate_ron c.estimate player s.hand_tensors_full _ s.sutehai_tensors t true (fun _ => false) = r
    cases r with
    | error e => exact .error e
    | ok r => exact .ok rfl
  · rintro ⟨full, rons⟩ _ rfl
    refine .ok ⟨h, setAt m player (removePon (t / 4) (m player)), ?_, hi'.hands, hi'.melds, hi'.pons, ?_⟩
    · unfold stCopies
      simp only [List.map_append, List.map_cons, List.map_nil, turnCopies]
    · intro x hx
      rcases List.mem_append.1 hx with hx | hx
      · exact hi.own x hx
      · rw [List.mem_singleton] at hx
        rw [hx]
        trivial

/-- the end of a call -/
theorem nakiEnd_copies {s : RoundSt} {h : Nat → Nat → Int} {m : Nat → List Naki} (hi : CopyInv π s h m) (b : Bool)
    (a : Option Nat) : SameOutcome (StCopies π)
      (if b then (.ok { s with curr_halfturn := none, cycles := s.cycles + 1, acquired := none } : Except PyErr RoundSt)
        else .ok { s with curr_halfturn := none, acquired := a })
      (if b then (.ok { stCopies π s h m with curr_halfturn := none, cycles := s.cycles + 1, acquired := none } : Except PyErr RoundSt)
        else .ok { stCopies π s h m with curr_halfturn := none, acquired := a.map π }) := by
  cases b
  · exact .ok ⟨h, m, rfl, hi.hands, hi.melds, hi.pons, hi.own⟩
  · exact .ok ⟨h, m, rfl, hi.hands, hi.melds, hi.pons, hi.own⟩

theorem stepNaki_copies (hπ : Copies π) (hest : CopyBlind π c.estimate) {s : RoundSt} {h : Nat → Nat → Int} {m : Nat → List Naki}
    (hi : CopyInv π s h m) {x x' : Nat} (hx : CodeSame π x x') (hp : FixesKinds π ∨ is_pon x = false) (w : Except PyErr Nat) :
    SameOutcome (StCopies π) (stepNaki c s (.ok x) w) (stepNaki c (stCopies π s h m) (.ok x') w) := by
  obtain ⟨k, k', hk, hk', hkk⟩ := hx.clean
  obtain ⟨l, l', a, hl, hl', hll, -, hka⟩ := hx.exposed
  unfold stepNaki
  refine .bind_same (pyAssert s.curr_halfturn.isSome) fun _ _ => ?_
  show SameOutcome _ (Naki.mk' x >>= _) (Naki.mk' x' >>= _)
  have e1 : Naki.mk' x = .ok ⟨x, k⟩ := by unfold Naki.mk'; rw [hk]
  have e2 : Naki.mk' x' = .ok ⟨x', k'⟩ := by unfold Naki.mk'; rw [hk']
  rw [e1, e2]
  refine .bind_same w fun player _ => ?_
  refine .bind_same _ fun _ _ => ?_
  have hms : MeldSame ⟨x, k⟩ ⟨x', k'⟩ := ⟨hx.pon, hx.kind, hx.arg⟩
  rw [hx.source]
  show SameOutcome _ (naki2idx player x >>= _) (naki2idx player x' >>= _)
  rw [hx.token]
  refine .bind_same _ fun tk _ => ?_
  have hi1 : CopyInv π { s with
      acquired := none
      cycles := s.cycles + (((player : Int) - from_who x) % 4).toNat
      melds := setAt s.melds player (s.melds player ++ [⟨x, k⟩])
      encoding_tokens := s.encoding_tokens ++ [tk] } h (setAt m player (m player ++ [⟨x', k'⟩])) := by
    refine ⟨hi.hands, setAt_pairs hi.melds player ((hi.melds player).append (.cons hms .nil)), ?_, hi.own⟩
    rcases hi.pons with hf | hf
    · exact .inl hf
    · rcases hp with hp | hp
      · exact .inl hp
      refine .inr fun p y hy => ?_
      simp only [setAt] at hy
      split at hy
      · rcases List.mem_append.1 hy with hy | hy
        · exact hf player y hy
        · rw [List.mem_singleton] at hy
          rw [hy]
          exact hp
      · exact hf p y hy
  refine .bind (nakiMark_copies hi1 (n := ⟨x, k⟩) (n' := ⟨x', k'⟩) hx.ankan hx.kakan hkk) ?_
  rintro s2 _ ⟨rfl, hi2, -⟩
  rw [hx.chi, hx.pon, hl, hl']
  show SameOutcome _ (nakiTiles _ player l a >>= _) (nakiTiles _ player l' (a.map π) >>= _)
  generalize hM : setAt m player (m player ++ [⟨x', k'⟩]) = M at hi2
  have hi3 : CopyInv π (if (!is_chi x && !is_pon x) = true then { s2 with remaining_tsumo := s2.remaining_tsumo - 1 } else s2) h M := by
    split
    · exact ⟨hi2.hands, hi2.melds, hi2.pons, hi2.own⟩
    · exact hi2
  have e3 : (if (!is_chi x && !is_pon x) = true then
      { stCopies π s2 h M with remaining_tsumo := (stCopies π s2 h M).remaining_tsumo - 1 } else stCopies π s2 h M) =
      stCopies π (if (!is_chi x && !is_pon x) = true then { s2 with remaining_tsumo := s2.remaining_tsumo - 1 } else s2) h M := by
    split <;> rfl
  rw [e3]
  refine .bind (nakiTiles_copies hπ hi3 player hll a) ?_
  rintro s4 _ ⟨h4, m4, rfl, hi4⟩
  rw [hx.kakan, hx.minkan, hx.ankan]
  have hi5 : CopyInv π { s4 with
      stateObj := some (mkStateObj c s4 player)
      is_menzen := if from_who x ≠ 0 then setAt s4.is_menzen player 0 else s4.is_menzen
      ippatsu := clearIppatsu s4.ippatsu } h4 m4 := ⟨hi4.hands, hi4.melds, hi4.pons, hi4.own⟩
  cases hkk' : is_kakan x with
  | false =>
    have := nakiEnd_copies hi5 (is_minkan x || is_ankan x || false) a
    exact this
  | true =>
    obtain ⟨t, rfl, rfl⟩ := hka hkk'
    refine .bind (chankan_copies hπ hest hi5 player t (mkStateObj c s4 player)) ?_
    rintro s6 _ ⟨h6, m6, rfl, hi6⟩
    exact nakiEnd_copies hi6 (is_minkan x || is_ankan x || true) a

/-! ### draws and discards -/

theorem set_copies (hπ : Copies π) {h h' : Nat → Nat → Int} (hh : ∀ p t, h' p (π t) = h p t) (player t : Nat) (v : Int) (p u : Nat) :
    setAt h' player (setAt (h' player) (π t) v) p (π u) = setAt h player (setAt (h player) t v) p u := by
  unfold setAt
  by_cases hp : p = player
  · rw [if_pos hp, if_pos hp]
    by_cases hu : u = t
    · rw [if_pos hu, if_pos (hu ▸ rfl)]
    · rw [if_neg hu, if_neg (fun e => hu (hπ.inj _ _ e))]
      exact hh player u
  · rw [if_neg hp, if_neg hp]
    exact hh p u

theorem kakanOffers_copies {s : RoundSt} {h : Nat → Nat → Int} (hh : ∀ p t, h p (π t) = s.hands p t) {l l' : List Naki}
    (hl : AllPairs MeldSame l l') (hf : FixesKinds π ∨ ∀ n ∈ l, is_pon n.naki_code = false) (player : Nat) :
    kakanOffers h player l' = kakanOffers s.hands player l := by
  induction hl with
  | nil => rfl
  | @cons x x' l l' h1 h2 ih =>
    have ih := ih (hf.imp id (fun hf n hn => hf n (List.mem_cons_of_mem _ hn)))
    unfold kakanOffers
    rw [ih, h1.pon]
    cases hp : is_pon x.naki_code
    · rfl
    · rcases hf with hf | hf
      · obtain ⟨k1, k2, k3⟩ := h1.kind hp
        rw [k1, k2]
        have : h player (9 * (pattern_pon x.naki_code).color + (pattern_pon x.naki_code).number) =
            s.hands player (9 * (pattern_pon x.naki_code).color + (pattern_pon x.naki_code).number) := by
          rw [← hh, hf _ k3]
        dsimp only
        rw [this]
      · rw [hf x (by simp)] at hp
        cases hp

theorem kakanInfo_source (q : Nat) : kakanInfo q 0 % 4 = 0 := by
  rw [← m3]
  unfold kakanInfo
  have h1 : ((q * 3 + 0) <<< 9) &&& 3 = 0 := by
    rw [m3, Nat.shiftLeft_eq]
    omega
  have h2 : (0x10 ||| ((q * 3 + 0) <<< 9)) &&& 3 = 0 := by
    rw [Nat.and_or_distrib_right, h1]
    rfl
  dsimp only
  split
  · rw [Nat.and_or_distrib_right, h2]
    rfl
  · exact h2

theorem kakanOffers_own (hands : Nat → Nat → Int) (player : Nat) : ∀ (l : List Naki) {n : List NakiDecision},
    kakanOffers hands player l = .ok n → ∀ d ∈ n, d.naki.convenient_naki_code % 4 = 0
  | [], n, h, d, hd => by
    simp only [kakanOffers, Except.ok.injEq] at h
    subst h
    cases hd
  | x :: l, n, h, d, hd => by
    unfold kakanOffers at h
    generalize hq : 9 * (pattern_pon x.naki_code).color + (pattern_pon x.naki_code).number = q at h
    have hrest : ∀ {A : List NakiDecision}, (∀ d ∈ A, d.naki.convenient_naki_code % 4 = 0) →
        (kakanOffers hands player l >>= fun rest => (.ok (A ++ rest) : Except PyErr _)) = .ok n →
        d.naki.convenient_naki_code % 4 = 0 := by
      intro A hA hr
      cases hk : kakanOffers hands player l with
      | error e => rw [hk] at hr; cases hr
      | ok rest =>
        rw [hk] at hr
        have hr : A ++ rest = n := Except.ok.inj hr
        rw [← hr] at hd
        rcases List.mem_append.1 hd with hd | hd
        · exact hA d hd
        · exact kakanOffers_own hands player l hk d hd
    cases hb : (is_pon x.naki_code && hands player q == 1)
    · dsimp only at h
      rw [hb] at h
      exact hrest (A := []) (by simp) h
    · dsimp only at h
      rw [hb] at h
      refine hrest (A := [⟨player, Naki.raw (kakanInfo q 0), false⟩]) ?_ h
      intro d hd
      rw [List.mem_singleton] at hd
      subst hd
      exact kakanInfo_source q

theorem ankanOffers_own (s : RoundSt) (player : Nat) : ∀ d ∈ ankanOffers s player, d.naki.convenient_naki_code % 4 = 0 := by
  intro d hd
  unfold ankanOffers at hd
  obtain ⟨k, -, rfl⟩ := List.mem_map.1 hd
  show (k * 4) <<< 8 % 4 = 0
  rw [Nat.shiftLeft_eq]
  omega

theorem stepDraw_copies (hπ : Copies π) (hest : CopyBlind π c.estimate) {s : RoundSt} {h : Nat → Nat → Int} {m : Nat → List Naki}
    (hi : CopyInv π s h m) (player : Nat) (x : Except PyErr Nat) :
    SameOutcome (StCopies π) (stepDraw c s player x) (stepDraw c (stCopies π s h m) player (x.map π)) := by
  unfold stepDraw
  have e0 : (stCopies π s h m).acquired.isNone = s.acquired.isNone := by
    show (s.acquired.map π).isNone = _
    cases s.acquired <;> rfl
  rw [e0]
  refine .bind_same _ fun _ _ => ?_
  cases x with
  | error e => exact .error e
  | ok t =>
    show SameOutcome _ (checkTile t >>= _) (checkTile (π t) >>= _)
    rw [checkTile_copies hπ]
    refine .bind_same _ fun _ _ => ?_
    have e1 : (stCopies π s h m).hands player (π t) = s.hands player t := hi.hands player t
    rw [e1]
    refine .bind_same _ fun _ _ => ?_
    have hi1 : CopyInv π (drawTile s player t) (setAt h player (setAt (h player) (π t) 1)) m := by
      refine ⟨fun p u => ?_, hi.melds, hi.pons, hi.own⟩
      show setAt h player (setAt (h player) (π t) 1) p (π u) = setAt s.hands player (setAt (s.hands player) t 1) p u
      exact set_copies hπ hi.hands player t 1 p u
    have e2 : drawTile (stCopies π s h m) player (π t) =
        stCopies π (drawTile s player t) (setAt h player (setAt (h player) (π t) 1)) m := by
      unfold drawTile stCopies
      simp only [hπ.slots, Option.map_some]
    rw [e2]
    generalize setAt h player (setAt (h player) (π t) 1) = h1 at *
    generalize drawTile s player t = s1 at *
    refine .bind_same (pyAssert (sum34 (s1.hand_tensors player) % 3 == 2)) fun _ _ => ?_
    have e3 := tsumo_copies (h := h1) hest hi1.melds player s1.hand_tensors_full (s1.remaining_tsumo == 0) t
      false (s1.cycles == 1) (decide (2 ≤ s1.cycles ∧ s1.cycles ≤ 4) && allMenzen s1.is_menzen)
    refine .bind (R := fun a b => b = a) ?_ ?_
    · show SameOutcome _ _ (evaluate_tsumo c.estimate player s1.hand_tensors_full (winArgs c (stCopies π s1 h1 m) (s1.remaining_tsumo == 0))
        (π t) false (s1.cycles == 1) (decide (2 ≤ s1.cycles ∧ s1.cycles ≤ 4) && allMenzen s1.is_menzen))
      rw [e3]
      generalize evaluate_tsumo c.estimate player s1.hand_tensors_full _ t _ _ _ = r
      cases r with
      | error e => exact .error e
      | ok r => exact .ok rfl
    · rintro ag _ rfl
      refine .bind_same (reachOffers c s1 player) fun re _ => ?_
      have e4 := kakanOffers_copies hi1.hands (hi1.melds player) (hi1.pons.imp id (fun hf => hf player)) player
      show SameOutcome _ (kakanOffers s1.hands player (s1.melds player) >>= _) (kakanOffers h1 player (m player) >>= _)
      rw [e4]
      refine .bind_same _ fun kn hkn => ?_
      refine .ok ⟨h1, m, ?_, hi1.hands, hi1.melds, hi1.pons, ?_⟩
      · unfold stCopies
        simp only [List.map_append, List.map_cons, List.map_nil, turnCopies, List.length_map]
        rfl
      · intro y hy
        rcases List.mem_append.1 hy with hy | hy
        · exact hi1.own y hy
        · rw [List.mem_singleton] at hy
          rw [hy]
          intro d hd
          rcases List.mem_append.1 hd with hd | hd
          · exact ankanOffers_own s1 player d hd
          · exact kakanOffers_own _ _ _ hkn d hd

theorem currDuring_copies (s : RoundSt) (h : Nat → Nat → Int) (m : Nat → List Naki) :
    currDuringOrNone (stCopies π s h m) = currDuringOrNone s := by
  unfold currDuringOrNone
  rw [curr_copies]
  show (match s.curr_halfturn, s.curr.map (turnCopies π) with | none, _ => true | some _, some (.during ..) => true | _, _ => false) = _
  cases s.curr_halfturn with
  | none => rfl
  | some i =>
    cases s.curr with
    | none => rfl
    | some t => cases t <;> rfl

theorem stepDiscard_copies (hπ : Copies π) (hest : CopyBlind π c.estimate) {s : RoundSt} {h : Nat → Nat → Int} {m : Nat → List Naki}
    (hi : CopyInv π s h m) (player : Nat) (x : Except PyErr Nat) :
    SameOutcome (StCopies π) (stepDiscard c s player x) (stepDiscard c (stCopies π s h m) player (x.map π)) := by
  unfold stepDiscard
  have e0 : (stCopies π s h m).acquired.isSome = s.acquired.isSome := by
    show (s.acquired.map π).isSome = _
    cases s.acquired <;> rfl
  rw [e0, currDuring_copies]
  refine .bind_same _ fun _ _ => ?_
  refine .bind_same _ fun _ _ => ?_
  cases x with
  | error e => exact .error e
  | ok t =>
    show SameOutcome _ (checkTile t >>= _) (checkTile (π t) >>= _)
    rw [checkTile_copies hπ]
    refine .bind_same _ fun _ _ => ?_
    have e1 : (stCopies π s h m).hands player (π t) = s.hands player t := hi.hands player t
    rw [e1]
    refine .bind_same _ fun _ _ => ?_
    refine .bind (R := fun a b => b = objCopies π a) ?_ ?_
    · show SameOutcome _ _ (match s.stateObj.map (objCopies π) with | some o => .ok o | none => .error .unboundLocal)
      cases s.stateObj with
      | none => exact .error _
      | some o => exact .ok rfl
    rintro o _ rfl
    have hi1 : CopyInv π (discardTile { s with halfturns := s.halfturns ++ [.discard player o s.encoding_tokens.length t] } player t)
        (setAt h player (setAt (h player) (π t) 0)) m := by
      refine ⟨fun p u => ?_, hi.melds, hi.pons, ?_⟩
      · show setAt h player (setAt (h player) (π t) 0) p (π u) = setAt s.hands player (setAt (s.hands player) t 0) p u
        exact set_copies hπ hi.hands player t 0 p u
      · intro y hy
        rcases List.mem_append.1 hy with hy | hy
        · exact hi.own y hy
        · rw [List.mem_singleton] at hy
          rw [hy]
          trivial
    have e2 : discardTile { stCopies π s h m with
          halfturns := (stCopies π s h m).halfturns ++ [.discard player (objCopies π o) (stCopies π s h m).encoding_tokens.length (π t)] }
          player (π t) =
        stCopies π (discardTile { s with halfturns := s.halfturns ++ [.discard player o s.encoding_tokens.length t] } player t)
          (setAt h player (setAt (h player) (π t) 0)) m := by
      unfold discardTile stCopies
      simp only [hπ.slots, List.map_append, List.map_cons, List.map_nil, turnCopies]
    dsimp only at e2 ⊢
    rw [e2]
    generalize setAt h player (setAt (h player) (π t) 0) = h1 at *
    generalize hs1 : discardTile { s with halfturns := s.halfturns ++ [.discard player o s.encoding_tokens.length t] } player t = s1 at *
    refine .bind_same (pyAssert (sum34 (s1.hand_tensors player) % 3 == 1)) fun _ _ => ?_
    have e3 := ron_copies (h := h1) hπ hest hi1.melds player s1.hand_tensors_full (s1.remaining_tsumo == 0) s1.sutehai_tensors t
      false (fun _ => decide (s1.cycles ≤ 3) && decide (s1.cycles ≤ player) && allMenzen s1.is_menzen)
    refine .bind (R := fun a b => b = a) ?_ ?_
    · show SameOutcome _ _ (evaluate_ron c.estimate player s1.hand_tensors_full (winArgs c (stCopies π s1 h1 m) (s1.remaining_tsumo == 0))
        s1.sutehai_tensors (π t) false (fun _ => decide (s1.cycles ≤ 3) && decide (s1.cycles ≤ player) && allMenzen s1.is_menzen))
      rw [e3]
      generalize evaluate_ron c.estimate player s1.hand_tensors_full _ s1.sutehai_tensors t _ _ = r
      cases r with
      | error e => exact .error e
      | ok r => exact .ok rfl
    rintro ⟨full, rons⟩ _ rfl
    rw [hπ.slots]
    refine .bind_same (decisionMask player s1.hand_tensors ((tile2idx t).headD 0) ((tile2idx t).length == 2)) fun offers _ => ?_
    refine .bind_same _ fun _ _ => ?_
    have e4 : ((stCopies π s1 h1 m).acquired == some (π t)) = (s1.acquired == some t) := by
      show (s1.acquired.map π == some (π t)) = _
      cases s1.acquired with
      | none => rfl
      | some a =>
        rw [Bool.eq_iff_iff]
        simp only [Option.map_some, beq_iff_eq, Option.some.injEq]
        exact ⟨hπ.inj _ _, fun e => e ▸ rfl⟩
    rw [e4]
    refine .bind_same _ fun tk _ => ?_
    refine .ok ⟨h1, m, ?_, hi1.hands, hi1.melds, hi1.pons, ?_⟩
    · unfold stCopies
      simp only [List.map_append, List.map_cons, List.map_nil, turnCopies, List.length_map, Option.map_none]
    · intro y hy
      rcases List.mem_append.1 hy with hy | hy
      · exact hi1.own y hy
      · rw [List.mem_singleton] at hy
        rw [hy]
        trivial

/-! ### whole rounds -/

theorem step_copies (hπ : Copies π) (hest : CopyBlind π c.estimate) {s s' : RoundSt} (hs : StCopies π s s') {e e' : Ev}
    (he : EvCopies π e e') (hp : FixesKinds π ∨ ponEvent e = false) : SameOutcome (StCopies π) (step c s e) (step c s' e') := by
  obtain ⟨h, m, rfl, hi⟩ := hs
  cases he with
  | dora x => exact stepDora_copies hπ hi x
  | reach w o => exact stepReach_copies hi w o
  | @call a b w h1 h2 h3 h4 =>
    refine stepNaki_copies hπ hest hi (codeSame hπ h1 h2 h3 h4) (hp.imp id fun hp => ?_) w
    simp only [ponEvent, decide_eq_false_iff_not] at hp
    have ho := (C93_tiles a h1).2.1
    cases hpon : is_pon a.encode
    · rfl
    · exfalso
      apply hp
      have hc : is_chi a.encode = false := by
        have := ho.2.1
        rw [hpon] at this
        rw [ho.1]
        cases ht : a.type <;> rw [ht] at this <;> first | rfl | cases this
      rw [meldType_eq, hc, hpon]
      rfl
  | noCall e w =>
    show SameOutcome _ (stepNaki c s (.error e) w) (stepNaki c (stCopies π s h m) (.error e) w)
    unfold stepNaki
    refine .bind_same (pyAssert s.curr_halfturn.isSome) fun _ _ => ?_
    exact .error e
  | draw p x => exact stepDraw_copies hπ hest hi p x
  | discard p x => exact stepDiscard_copies hπ hest hi p x
  | result a sc => exact .ok ⟨h, m, rfl, hi⟩
  | other => exact .error _

/-- the events from the first result on -/
def RestCopies (π : Nat → Nat) : Option (List Ev) → Option (List Ev) → Prop
  | none, none => True
  | some r, some r' => AllPairs (EvCopies π) r r'
  | _, _ => False

theorem run_copies (hπ : Copies π) (hest : CopyBlind π c.estimate) {evs evs' : List Ev} (he : AllPairs (EvCopies π) evs evs') :
    ∀ {s s' : RoundSt}, StCopies π s s' → (FixesKinds π ∨ ∀ e ∈ evs, ponEvent e = false) →
    SameOutcome (fun x y => StCopies π x.1 y.1 ∧ RestCopies π x.2 y.2) (runEvents c evs s) (runEvents c evs' s') := by
  induction he with
  | nil => intro s s' hs _; exact .ok ⟨hs, trivial⟩
  | @cons e e' l l' h1 h2 ih =>
    intro s s' hs hp
    have hstep := step_copies (c := c) hπ hest hs h1 (hp.imp id fun h => h e (by simp))
    have ih := fun {a b} (hab : StCopies π a b) => ih hab (hp.imp id fun h x hx => h x (by simp [hx]))
    have go : ∀ x y, SameOutcome (StCopies π) x y → SameOutcome (fun x y => StCopies π x.1 y.1 ∧ RestCopies π x.2 y.2)
        (match x with | .error x => (.error x : Except PyErr (RoundSt × Option (List Ev))) | .ok s => runEvents c l s)
        (match y with | .error x => (.error x : Except PyErr (RoundSt × Option (List Ev))) | .ok s => runEvents c l' s) := by
      intro x y hxy
      cases hxy with
      | ok hab => exact ih hab
      | error e => exact .error e
    cases h1 with
    | result a sc => exact .ok ⟨hs, .cons (.result a sc) h2⟩
    | dora x => exact go _ _ hstep
    | reach w o => exact go _ _ hstep
    | call w => exact go _ _ hstep
    | noCall e w => exact go _ _ hstep
    | draw p x => exact go _ _ hstep
    | discard p x => exact go _ _ hstep
    | other => exact go _ _ hstep

theorem results_copies {r r' : List Ev} (h : AllPairs (EvCopies π) r r') : checkResults r' = checkResults r := by
  induction h with
  | nil => rfl
  | cons h1 _ ih =>
    cases h1 with
    | result a sc =>
      unfold checkResults
      rw [ih]
    | _ => rfl

theorem countTiles_copies (hπ : Copies π) (l : List Nat) (f : Nat → Int) (d : Int) :
    countTiles (l.map π) f d = countTiles l f d := by
  unfold countTiles
  rw [List.foldl_map]
  simp only [hπ.slots]

theorem range_copies (hπ : Copies π) : (List.range 136).Perm ((List.range 136).map π) := by
  refine map_perm hπ List.nodup_range (by simp) ?_
  intro t ht
  rw [List.mem_range] at ht ⊢
  exact (hπ.lt_iff 34 t).2 ht

theorem sum_copies (hπ : Copies π) (f : Nat → Int) : ((List.range 136).map f).sum = ((List.range 136).map (fun t => f (π t))).sum := by
  have := ((range_copies hπ).map f).sum_eq
  rw [this, List.map_map]
  rfl

theorem mem_copies_map (hπ : Copies π) (l : List Nat) (t : Nat) : π t ∈ l.map π ↔ t ∈ l := by
  rw [List.mem_map]
  constructor
  · rintro ⟨x, hx, e⟩
    rwa [← hπ.inj _ _ e]
  · exact fun h => ⟨t, h, rfl⟩

/-- the tables of held tiles after the deal -/
theorem dealt_copies (hπ : Copies π) (h0 h1 h2 h3 : List Nat) (p t : Nat) :
    (if π t ∈ (if p = 0 then h0.map π else if p = 1 then h1.map π else if p = 2 then h2.map π else if p = 3 then h3.map π else [])
      then (1 : Int) else 0) =
    if t ∈ (if p = 0 then h0 else if p = 1 then h1 else if p = 2 then h2 else if p = 3 then h3 else []) then (1 : Int) else 0 := by
  have : (if p = 0 then h0.map π else if p = 1 then h1.map π else if p = 2 then h2.map π else if p = 3 then h3.map π else []) =
      (if p = 0 then h0 else if p = 1 then h1 else if p = 2 then h2 else if p = 3 then h3 else []).map π := by
    repeat' split
    all_goals rfl
  rw [this]
  simp only [mem_copies_map hπ]

theorem init_copies (hπ : Copies π) (est : Estimate) (sh : List Int → Except PyErr Int) (g : GameInfo) (a : InitAttr) :
    SameOutcome (fun x y => y.1 = x.1 ∧ x.1.estimate = est ∧ StCopies π x.2 y.2) (initRound est sh g a) (initRound est sh g (dealCopies π a)) := by
  unfold initRound
  refine .bind_same a.ten fun ten _ => ?_
  refine .bind_same a.oya fun parent _ => ?_
  refine .bind_same _ fun _ _ => ?_
  show SameOutcome _ (a.seed >>= _) (a.seed.map (seedCopies π) >>= _)
  cases a.seed with
  | error e => exact .error e
  | ok seed =>
    show SameOutcome _ (unpackSeed seed >>= _) (unpackSeed (seedCopies π seed) >>= _)
    refine .bind (R := fun x y => y = (x.1, x.2.1, x.2.2.1, π x.2.2.2)) ?_ ?_
    · unfold unpackSeed
      split
      · exact .ok rfl
      · next hne =>
        have : seedCopies π seed = seed := by
          unfold seedCopies
          split
          · next r h k x y d => exact absurd rfl (hne r h k x y d)
          · rfl
        rw [this]
        split
        · next r h k x y d => exact absurd rfl (hne r h k x y d)
        · exact .error _
    rintro ⟨r, hb, ky, d⟩ _ rfl
    dsimp only
    refine .bind (R := fun x y => y = x.map π) ?_ ?_
    · show SameOutcome _ (a.hai 0) ((a.hai 0).map (List.map π))
      cases a.hai 0 with
      | error e => exact .error e
      | ok l => exact .ok rfl
    rintro h0 _ rfl
    refine .bind (R := fun x y => y = x.map π) ?_ ?_
    · show SameOutcome _ (a.hai 1) ((a.hai 1).map (List.map π))
      cases a.hai 1 with
      | error e => exact .error e
      | ok l => exact .ok rfl
    rintro h1 _ rfl
    refine .bind (R := fun x y => y = x.map π) ?_ ?_
    · show SameOutcome _ (a.hai 2) ((a.hai 2).map (List.map π))
      cases a.hai 2 with
      | error e => exact .error e
      | ok l => exact .ok rfl
    rintro h2 _ rfl
    refine .bind (R := fun x y => y = x.map π) ?_ ?_
    · show SameOutcome _ (a.hai 3) ((a.hai 3).map (List.map π))
      cases a.hai 3 with
      | error e => exact .error e
      | ok l => exact .ok rfl
    rintro h3 _ rfl
    have hct : checkTiles (h0.map π ++ h1.map π ++ h2.map π ++ h3.map π) = checkTiles (h0 ++ h1 ++ h2 ++ h3) :=
      checkTiles_copies hπ (by rw [List.map_append, List.map_append, List.map_append])
    rw [hct, checkTile_copies hπ]
    refine .bind_same _ fun _ _ => ?_
    refine .bind_same _ fun _ _ => ?_
    simp only [List.length_map]
    split
    · have hc : ∀ p, countTiles (if p = 0 then h0.map π else if p = 1 then h1.map π else if p = 2 then h2.map π else
          if p = 3 then h3.map π else []) = countTiles (if p = 0 then h0 else if p = 1 then h1 else if p = 2 then h2 else
          if p = 3 then h3 else []) := by
        intro p
        funext f d
        repeat' split
        all_goals first | exact countTiles_copies hπ _ f d | rfl
      have hsum : ((List.range 4).all (fun p => ((List.range 136).map (fun t => if t ∈ (if p = 0 then h0.map π else
          if p = 1 then h1.map π else if p = 2 then h2.map π else if p = 3 then h3.map π else []) then (1 : Int) else 0)).sum == 13)) =
          ((List.range 4).all (fun p => ((List.range 136).map (fun t => if t ∈ (if p = 0 then h0 else
          if p = 1 then h1 else if p = 2 then h2 else if p = 3 then h3 else []) then (1 : Int) else 0)).sum == 13)) := by
        congr 1
        funext p
        rw [sum_copies hπ]
        simp only [dealt_copies hπ]
      have hall : countTiles (h0.map π ++ h1.map π ++ h2.map π ++ h3.map π) = countTiles (h0 ++ h1 ++ h2 ++ h3) := by
        funext f d
        rw [← List.map_append, ← List.map_append, ← List.map_append, countTiles_copies hπ]
      rw [hsum, hall, hπ.slots]
      refine .bind_same _ fun _ _ => ?_
      refine .bind_same _ fun _ _ => ?_
      simp only [hc]
      refine .ok ⟨rfl, rfl, _, _, rfl, ?_, fun p => .nil, .inr (fun p n hn => by cases hn), fun t ht => by cases ht⟩
      intro p t
      exact dealt_copies hπ h0 h1 h2 h3 p t
    · exact .error _

/-- the two rounds are processed alike -/
theorem round_copies (hπ : Copies π) {est : Estimate} (hest : CopyBlind π est) (sh : List Int → Except PyErr Int) (g : GameInfo)
    (a : InitAttr) {evs evs' : List Ev} (he : AllPairs (EvCopies π) evs evs')
    (hp : FixesKinds π ∨ ∀ e ∈ evs, ponEvent e = false) :
    SameOutcome (StCopies π) (processRound est sh g a evs) (processRound est sh g (dealCopies π a) evs') := by
  unfold processRound
  refine .bind (init_copies hπ est sh g a) ?_
  rintro ⟨c, s⟩ ⟨c', s'⟩ ⟨h0, h1, h2⟩
  dsimp only at h0 h1 h2 ⊢
  subst h0
  refine .bind (run_copies hπ (h1 ▸ hest) he h2 hp) ?_
  rintro ⟨s, r⟩ ⟨s', r'⟩ ⟨hs, hr⟩
  dsimp only at hs hr ⊢
  cases r with
  | none =>
    cases r' with
    | none => exact .error _
    | some r' => exact hr.elim
  | some r =>
    cases r' with
    | none => exact hr.elim
    | some r' =>
      dsimp only
      rw [results_copies hr]
      refine .bind_same _ fun _ _ => ?_
      obtain ⟨h, m, rfl, hi⟩ := hs
      refine .bind_same (pyAssert (finalOk s)) fun _ _ => ?_
      exact .ok ⟨h, m, rfl, hi⟩

end MJ
