import Verif.Props.RoundShown
import Verif.Props.Pipeline
import Verif.Model.Dropout
/-!
Property C150: which rows of the embedding tables are ever used.
-/
namespace MJ
open Spec Net Code

/-! ### the tokens that occur -/

/-- an event of a round: the processor passes on the kind of a tile (0-33), the melds have existing tiles -/
def Spec.LoggedEvent : TokenEvent → Prop
  | .discard w k _ => w < 4 ∧ k < 34
  | .naki _ c => WellFormed c
  | .reach _ => True
  | .dora k => k < 34

/-- a token of a sample: of an event, or padding -/
def Spec.LogToken (n : Nat) : Prop := n = padId ∨ ∃ e, LoggedEvent e ∧ e.token = .ok n

/-- the call actions that no meld has as its number -/
def Spec.uncalled : List Nat := [65, 66, 67, 70, 73, 76, 79, 82]

theorem post_called (c : Nat) (w : WellFormed c) (i : Nat) (h : get_post_turn_filter_idx c = .ok (i : Int)) : i ∉ uncalled := by
  have hno : ∀ j ∈ uncalled, j = 65 ∨ j = 66 ∨ j = 67 ∨ j = 70 ∨ j = 73 ∨ j = 76 ∨ j = 79 ∨ j = 82 := by decide
  intro hi
  have hi := hno i hi
  cases hc : is_chi c
  · cases hp : is_pon c
    · cases hm : is_minkan c
      · rw [post_other c hc hp hm] at h; simp at h
      · rw [post_minkan c hc hp hm] at h
        simp only [Except.ok.injEq] at h
        omega
    · rcases post_pon c hc hp with h' | ⟨_, h'⟩ <;> rw [h'] at h <;> simp only [Except.ok.injEq] at h
      · split at h <;> omega
      · omega
  · have wf := wf_chi c hc w
    by_cases hr : redHandChi c
    · have hk : (pattern_chi c).color < 3 := by rw [pattern_chi_color]; omega
      have hw : (pattern_chi c).which < 3 := by rw [pattern_chi_which]; omega
      have hn := (pattern_chi_red c).1 hr.2.1
      have hne := hr.2.2
      rw [post_chi_red c hr] at h
      simp only [Except.ok.injEq] at h
      omega
    · rw [post_chi_plain c hc hr] at h
      simp only [Except.ok.injEq] at h
      omega

/-- the fields of a token -/
theorem logToken_form {t : Nat} (h : LogToken t) :
    ∃ s y p n, t = s * 8192 + y * 1024 + p * 256 + n ∧ p < 4 ∧ n < 256 ∧
      ((s = 0 ∧ y = 0 ∧ p = 0 ∧ n = 0) ∨ (s = 1 ∧ y = 2 ∧ n % 128 < 34) ∨ (s = 2 ∧ y = 2 ∧ 3 ≤ n ∧ n ≤ 70) ∨
       (s = 3 ∧ y = 2 ∧ 2 ≤ n ∧ n ≤ 153 ∧ n ∉ uncalled) ∨ (s = 2 ∧ y = 3 ∧ n = 2) ∨ (s = 4 ∧ y = 4 ∧ p = 0 ∧ n < 34)) := by
  rcases h with rfl | ⟨e, hl, h⟩
  · exact ⟨0, 0, 0, 0, rfl, by omega, by omega, .inl ⟨rfl, rfl, rfl, rfl⟩⟩
  cases e with
  | discard w k b =>
    obtain ⟨hw, hk⟩ := hl
    have hts := Bool.toNat_le b
    simp only [TokenEvent.token, discard_token w k b hw (by omega), Except.ok.injEq] at h
    exact ⟨1, 2, w, b.toNat * 128 + k, h.symm, hw, by omega, .inr (.inl ⟨rfl, rfl, by omega⟩)⟩
  | naki w c =>
    have wf : WellFormed c := hl
    have hw : w < 4 := by
      rcases Nat.lt_or_ge w 4 with hw | hw
      · exact hw
      · simp [TokenEvent.token, (C13_naki_rejects w c).1 hw] at h
    cases hm : Spec.meldType c with
    | none => simp [TokenEvent.token, (C13_naki_rejects w c).2 hw hm] at h
    | some ty =>
      obtain ⟨n, hn, h1, h2⟩ := naki_token w c hw ty hm
      have r1 := C09_during_idx_range c wf
      have r2 := C10_post_idx_range c wf
      rw [hm] at r1 r2
      by_cases hd : ty = .kakan ∨ ty = .ankan
      · obtain ⟨a1, a2, a3⟩ := h1 hd
        simp only [TokenEvent.token, a3, Except.ok.injEq] at h
        have : n ≤ 70 := by
          rcases hd with rfl | rfl <;> obtain ⟨i, b1, b2⟩ := r1 <;> rw [a2] at b1 <;>
            simp only [Except.ok.injEq] at b1 <;> omega
        exact ⟨2, 2, w, n, h.symm, hw, hn, by omega⟩
      · have hp : ty = .chi ∨ ty = .pon ∨ ty = .minkan := by
          cases ty <;> simp_all
        obtain ⟨a1, a2, a3⟩ := h2 hp
        simp only [TokenEvent.token, a3, Except.ok.injEq] at h
        have : n ≤ 153 := by
          rcases hp with rfl | rfl | rfl <;> obtain ⟨i, b1, b2⟩ := r2 <;> rw [a2] at b1 <;>
            simp only [Except.ok.injEq] at b1 <;> omega
        exact ⟨3, 2, w, n, h.symm, hw, hn, .inr (.inr (.inr (.inl ⟨rfl, rfl, a1, this, post_called c wf n a2⟩)))⟩
  | reach w =>
    have hw : w < 4 := by
      rcases Nat.lt_or_ge w 4 with hw | hw
      · exact hw
      · simp [TokenEvent.token, reach2idx, Nat.not_lt.2 hw] at h
    simp only [TokenEvent.token, reach_token w hw, Except.ok.injEq] at h
    exact ⟨2, 3, w, 2, h.symm, hw, by omega, by omega⟩
  | dora k =>
    have hk : k < 34 := hl
    simp only [TokenEvent.token, dora_token k (by omega), Except.ok.injEq] at h
    exact ⟨4, 4, 0, k, h.symm, by omega, by omega, by omega⟩

/-! ### the rows -/

/-- the tables; those of positions and players are not trained -/
inductive Spec.TableName where
  | type | tile | tsumogiri | during | post | position | player
  deriving DecidableEq, Repr

def Spec.TableName.all : List TableName := [.type, .tile, .tsumogiri, .during, .post, .position, .player]

/-- a row of a table -/
def Tables.row {V : Type} (T : Tables V) : TableName → Nat → V
  | .type => T.type
  | .tile => T.tile
  | .tsumogiri => T.tsumogiri
  | .during => T.during_naki
  | .post => T.post_naki
  | .position => T.position
  | .player => T.player

/-- the number of rows -/
def Spec.tableSize : Variant → TableName → Nat
  | _, .type => 4
  | _, .tile => 37
  | .ordered, .tsumogiri => 2
  | _, .tsumogiri => 1
  | _, .during => 71
  | _, .post => 154
  | _, .position => 150
  | _, .player => 4

/-- the rows of which no use is made -/
def Spec.deadRows : Variant → TableName → List Nat
  | .ordered, .type => [0]
  | _, .type => [1, 2, 3]
  | .ordered, .tile => [34, 35, 36]
  | _, .tile => []
  | .ordered, .tsumogiri => [0]
  | _, .tsumogiri => []
  | .ordered, .during => [0, 1, 2]
  | _, .during => [65, 66, 67]
  | .ordered, .post => 0 :: 1 :: uncalled
  | _, .post => (List.range 57).map (· + 71)
  | _, .position => []
  | .ordered, .player => []
  | _, .player => [1, 2, 3]

/-- a row that is used -/
def Spec.LiveRow (v : Variant) (name : TableName) (i : Nat) : Prop := i < tableSize v name ∧ i ∉ deadRows v name

instance (v : Variant) (name : TableName) (i : Nat) : Decidable (LiveRow v name i) := by unfold LiveRow; infer_instance

theorem masked_congr {V : Type} [Zero V] {m : Bool} {x y : V} (h : m = true → x = y) : masked m x = masked m y := by
  cases m
  · rfl
  · simp [masked, h rfl]

theorem mem_uncalled {i : Nat} (h : i ∈ uncalled) : i = 65 ∨ i = 66 ∨ i = 67 ∨ i = 70 ∨ i = 73 ∨ i = 76 ∨ i = 79 ∨ i = 82 := by
  simpa [uncalled] using h

/-- **C150.** The rows listed as dead have no influence: tables that agree in all other rows give the same embedding for
every token of a sample, at every position and for every viewing player. -/
theorem C150_dead {V : Type} [Zero V] [Add V] (v : Variant) (T T' : Tables V) (he : T.empty = T'.empty)
    (h : ∀ name i, LiveRow v name i → T.row name i = T'.row name i) (player : Int) (pos : Nat) (hp : pos < 150) (t : Nat)
    (ht : LogToken t) : embed v T player pos (BitVec.ofNat 64 t) = embed v T' player pos (BitVec.ofNat 64 t) := by
  obtain ⟨s, y, p, n, rfl, hp1, hn, hf⟩ := logToken_form ht
  have t1 := tokenFields_parts s y p n (by omega) (by omega) hp1 hn
  have hpos : T.position pos = T'.position pos := h .position pos ⟨hp, by cases v <;> simp [deadRows]⟩
  have basic : (v = .basic ∨ v = .conv) → embedBasic T pos (BitVec.ofNat 64 (s * 8192 + y * 1024 + p * 256 + n)) =
      embedBasic T' pos (BitVec.ofNat 64 (s * 8192 + y * 1024 + p * 256 + n)) := by
    intro hv
    have ed : ∀ name i, i < tableSize .basic name → i ∉ deadRows .basic name → T.row name i = T'.row name i := by
      rcases hv with rfl | rfl
      · exact fun name i h1 h2 => h name i ⟨h1, h2⟩
      · exact fun name i h1 h2 => h name i ⟨by cases name <;> exact h1, by cases name <;> exact h2⟩
    rw [embedBasic_eq _ pos _ hp (by rw [t1]; simp only; omega), embedBasic_eq _ pos _ hp (by rw [t1]; simp only; omega), t1, he]
    dsimp only
    congr 1
    refine congrArg₂ (· + ·) (congrArg₂ (· + ·) (congrArg₂ (· + ·) (congrArg₂ (· + ·) (congrArg₂ (· + ·) (congrArg₂ (· + ·)
      (congrArg₂ (· + ·) rfl ?_) ?_) ?_) ?_) ?_) ?_) ?_ <;> refine masked_congr fun hm => ?_
    · refine ed .type _ (show _ < 4 by omega) (show _ ∉ [1, 2, 3] from ?_)
      have : s = 0 := by simpa using hm
      simp only [List.mem_cons, List.not_mem_nil, or_false]
      omega
    · exact ed .tile _ (show _ < 37 by omega) (show _ ∉ [] by simp)
    · refine ed .player _ (show _ < 4 from hp1) (show _ ∉ [1, 2, 3] from ?_)
      simp only [Bool.and_eq_true, bne_iff_ne] at hm
      simp only [List.mem_cons, List.not_mem_nil, or_false]
      omega
    · exact ed .tsumogiri 0 (show 0 < 1 by omega) (show 0 ∉ [] by simp)
    · exact hpos
    · refine ed .during _ (show _ < 71 by omega) (show _ ∉ [65, 66, 67] from ?_)
      simp only [Bool.or_eq_true, bne_iff_ne, decide_eq_true_eq] at hm
      simp only [List.mem_cons, List.not_mem_nil, or_false]
      intro hi
      have hn6 : n = 65 ∨ n = 66 ∨ n = 67 := by omega
      have : n ∈ uncalled := by rcases hn6 with rfl | rfl | rfl <;> decide
      rcases hf with hf | hf | hf | hf | hf | hf
      · omega
      · omega
      · omega
      · exact hf.2.2.2.2 this
      · omega
      · omega
    · refine ed .post _ (show _ < 154 by omega) (show _ ∉ (List.range 57).map (· + 71) from ?_)
      simp only [Bool.or_eq_true, bne_iff_ne, decide_eq_true_eq] at hm
      simp only [List.mem_map, List.mem_range, not_exists, not_and]
      intro k hk hi
      clear t1 hpos h ed ht
      omega
  cases v with
  | basic => exact basic (.inl rfl)
  | conv => exact basic (.inr rfl)
  | ordered =>
    show embedOrdered _ _ _ _ = embedOrdered _ _ _ _
    have ed : ∀ name i, i < tableSize .ordered name → i ∉ deadRows .ordered name → T.row name i = T'.row name i :=
      fun name i h1 h2 => h name i ⟨h1, h2⟩
    rw [embedOrdered_eq _ _ pos _ hp (by rw [t1]; simp only; omega),
      embedOrdered_eq _ _ pos _ hp (by rw [t1]; simp only; omega), t1, he]
    dsimp only
    congr 1
    refine congrArg₂ (· + ·) (congrArg₂ (· + ·) (congrArg₂ (· + ·) (congrArg₂ (· + ·) (congrArg₂ (· + ·) (congrArg₂ (· + ·)
      (congrArg₂ (· + ·) rfl ?_) ?_) ?_) ?_) ?_) ?_) ?_ <;> refine masked_congr fun hm => ?_
    · refine ed .type _ (show _ < 4 by omega) (show _ ∉ [0] from ?_)
      simp only [bne_iff_ne] at hm
      simp only [List.mem_singleton]
      omega
    · refine ed .tile _ (show _ < 37 by omega) (show _ ∉ [34, 35, 36] from ?_)
      simp only [Bool.or_eq_true, beq_iff_eq] at hm
      simp only [List.mem_cons, List.not_mem_nil, or_false]
      omega
    · exact ed .player _ (show _ < 4 by omega) (show _ ∉ [] by simp)
    · refine ed .tsumogiri _ (show _ < 2 by omega) (show _ ∉ [0] from ?_)
      simp only [Bool.and_eq_true, bne_iff_ne] at hm
      simp only [List.mem_singleton]
      exact hm.2
    · exact hpos
    · refine ed .during _ (show _ < 71 by omega) (show _ ∉ [0, 1, 2] from ?_)
      simp only [Bool.and_eq_true, decide_eq_true_eq] at hm
      simp only [List.mem_cons, List.not_mem_nil, or_false]
      omega
    · refine ed .post _ (show _ < 154 by omega) (show _ ∉ 0 :: 1 :: uncalled from ?_)
      simp only [Bool.and_eq_true, decide_eq_true_eq, beq_iff_eq] at hm
      simp only [List.mem_cons, not_or]
      have hu : n ∉ uncalled ∧ n ≤ 153 := by
        rcases hf with hf | hf | hf | hf | hf | hf
        · omega
        · omega
        · omega
        · exact ⟨hf.2.2.2.2, hf.2.2.2.1⟩
        · omega
        · omega
      rw [Nat.min_eq_left hu.2]
      exact ⟨by omega, by omega, hu.1⟩

/-! ### every other row is used -/

/-- the tables with a single non-zero entry -/
def Spec.unitTables (name : TableName) (i : Nat) : Tables Int :=
  let one (m : TableName) (j : Nat) : Int := if m = name ∧ j = i then 1 else 0
  { empty := 0, type := one .type, tile := one .tile, tsumogiri := one .tsumogiri, during_naki := one .during,
    post_naki := one .post, position := one .position, player := one .player }

/-- a chi of the suit `c` from `n + 1` on, with the red five, calling the tile `w` -/
def redChi (c n w : Nat) : Nat :=
  7 + (if n = 4 then 0 else 8) + (if n = 3 then 0 else 32) + (if n = 2 then 0 else 128) + 1024 * ((c * 7 + n) * 3 + w)

/-- a meld with the call action `r` -/
def callWith (r : Nat) : Nat :=
  if r ≤ 64 then 7 + 8 + 32 + 128 + 1024 * (r - 2)
  else if r ≤ 82 then
    let c := if r ≤ 74 then 0 else if r ≤ 80 then 1 else 2
    match r - 65 - 6 * c with
    | 3 => redChi c 2 0
    | 4 => redChi c 2 1
    | 6 => redChi c 3 0
    | 7 => redChi c 3 2
    | _ => redChi c 4 1
  else if r ≤ 109 then 9 + 512 * ((r - 83) * 3)
  else if r ≤ 112 then 9 + 32 + 512 * ((9 * (r - 110) + 4) * 3 + 2)
  else if r ≤ 119 then 9 + 512 * ((r - 113 + 27) * 3)
  else 1 + 256 * ((r - 120) * 4 + 1)

/-- a kan with the action `r` -/
def kanWith (r : Nat) : Nat := if r ≤ 36 then 256 * (4 * (r - 3)) else 1 + 16 + 32 + 512 * ((r - 37) * 3)

/-- an event for a row; `none` for padding -/
def eventFor : Variant → TableName → Nat → Option TokenEvent
  | .ordered, .type, i => some (if i = 1 then .discard 0 0 false else if i = 2 then .reach 0 else .dora 0)
  | _, .type, _ => none
  | .ordered, .tile, i => some (.dora i)
  | _, .tile, i => if i = 0 then none else if i = 1 then some (.naki 0 (callWith 129)) else some (.naki 0 (callWith i))
  | .ordered, .tsumogiri, _ => some (.discard 0 0 true)
  | _, .tsumogiri, _ => none
  | .ordered, .during, i => some (.naki 0 (kanWith i))
  | _, .during, i => some (if i < 34 then .dora i else if i = 70 then .naki 0 (callWith 71) else .naki 0 (callWith i))
  | .ordered, .post, i => some (.naki 0 (callWith i))
  | _, .post, i => some (if i < 34 then .dora i else if i ≤ 70 then .naki 0 (kanWith i) else .discard 0 (i - 128) true)
  | _, .position, _ => some (.dora 0)
  | .ordered, .player, i => some (.reach i)
  | _, .player, _ => none

instance decWellFormed (c : Nat) : Decidable (WellFormed c) := by
  unfold WellFormed
  refine @instDecidableAnd _ _ _ ?_
  cases meldType c with
  | none => exact .isFalse id
  | some ty => cases ty <;> dsimp only <;> infer_instance

def loggedB : TokenEvent → Bool
  | .discard w k _ => decide (w < 4 ∧ k < 34)
  | .naki _ c => decide (WellFormed c)
  | .reach _ => true
  | .dora k => decide (k < 34)

theorem loggedB_ok {e : TokenEvent} (h : loggedB e = true) : LoggedEvent e := by
  cases e with
  | discard w k b => exact (of_decide_eq_true h : w < 4 ∧ k < 34)
  | naki w c => exact (of_decide_eq_true h : WellFormed c)
  | reach => trivial
  | dora k => exact (of_decide_eq_true h : k < 34)

/-- value of an embedding -/
def embedVal (v : Variant) (T : Tables Int) (pos n : Nat) : Int :=
  match embed v T 0 pos (BitVec.ofNat 64 n) with
  | .ok x => x
  | .error _ => 0

def rowCheck (v : Variant) (name : TableName) (i : Nat) : Bool :=
  let pos := if name = .position then i else 0
  match eventFor v name i with
  | none => embedVal v (unitTables name i) pos padId == 1
  | some e => loggedB e && (match e.token with
    | .ok n => embedVal v (unitTables name i) pos n == 1
    | .error _ => false)

theorem rows_checked (v : Variant) : ∀ name ∈ TableName.all, ∀ i < tableSize v name, i ∉ deadRows v name → rowCheck v name i = true := by
  cases v <;> decide +kernel

/-- two tables that agree but for one row -/
def Spec.SameButRow {V : Type} (name : TableName) (i : Nat) (T T' : Tables V) : Prop :=
  T.empty = T'.empty ∧ ∀ m j, ¬ (m = name ∧ j = i) → T.row m j = T'.row m j

/-- the row has an influence on the embedding of some token of a sample -/
def Spec.Influences (v : Variant) (name : TableName) (i : Nat) : Prop :=
  ∃ T T' : Tables Int, SameButRow name i T T' ∧ ∃ (t pos : Nat) (player : Int), LogToken t ∧ pos < 150 ∧
    embed v T player pos (BitVec.ofNat 64 t) ≠ embed v T' player pos (BitVec.ofNat 64 t)

theorem unit_row (name m : TableName) (i j : Nat) : (unitTables name i).row m j = if m = name ∧ j = i then 1 else 0 := by
  cases m <;> rfl

/-- tables of zeros -/
def Spec.zeroTables : Tables Int :=
  ⟨0, fun _ => 0, fun _ => 0, fun _ => 0, fun _ => 0, fun _ => 0, fun _ => 0, fun _ => 0⟩

theorem embedVal_zero (v : Variant) (pos n : Nat) : embedVal v zeroTables pos n = 0 := by
  unfold embedVal embed
  by_cases hp : pos < 150
  · by_cases he : (tokenFields (BitVec.ofNat 64 n)).embedding_type ≤ 4
    · have e : ∀ m : Bool, masked m (0 : Int) = 0 := by intro m; cases m <;> rfl
      cases v <;> dsimp only
      · rw [embedBasic_eq _ _ _ hp he]; simp [zeroTables, e]
      · rw [embedBasic_eq _ _ _ hp he]; simp [zeroTables, e]
      · rw [embedOrdered_eq _ _ _ _ hp he]; simp [zeroTables, e]
    · cases v <;> dsimp only
      · rw [embedBasic_err _ _ _ he]
      · rw [embedBasic_err _ _ _ he]
      · rw [embedOrdered_err _ _ _ _ he]
  · have hp : ¬ pos < maxActionLen := hp
    have key : ∀ v, ∀ x, embed v zeroTables 0 pos (BitVec.ofNat 64 n) ≠ .ok x := by
      intro v x h
      have : lookup maxActionLen zeroTables.position pos = .error .index := by simp [lookup, hp]
      cases v <;> simp only [embed, embedBasic, embedOrdered, this, bind_ok] at h <;>
        obtain ⟨_, _, _, _, _, _, _, _, _, h, _⟩ := h <;> cases h
    have := key v
    unfold embed at this
    split <;> first | rfl | (rename_i x hx; exact absurd hx (this x))

/-- **C150.** Exactly the rows not listed as dead influence the embedding of some token of a sample. -/
theorem C150_rows_partial (v : Variant) (name : TableName) (i : Nat) (hi : i < tableSize v name) :
    Influences v name i ↔ i ∉ deadRows v name := by
  constructor
  · rintro ⟨T, T', ⟨he, hs⟩, t, pos, player, ht, hp, hne⟩ hd
    refine hne (C150_dead v T T' he ?_ player pos hp t ht)
    rintro m j ⟨_, hj⟩
    refine hs m j ?_
    rintro ⟨rfl, rfl⟩
    exact hj hd
  · intro hd
    have hall : name ∈ TableName.all := by cases name <;> decide
    have hc := rows_checked v name hall i hi hd
    have hpos : (if name = .position then i else 0) < 150 := by
      split
      · rename_i h; subst h; cases v <;> exact hi
      · decide
    have hsame : SameButRow name i (unitTables name i) zeroTables := by
      refine ⟨rfl, fun m j h => ?_⟩
      rw [unit_row, if_neg h]
      cases m <;> rfl
    refine ⟨_, _, hsame, ?_⟩
    have fin : ∀ n, LogToken n → embedVal v (unitTables name i) (if name = .position then i else 0) n = 1 →
        ∃ (t pos : Nat) (player : Int), LogToken t ∧ pos < 150 ∧ embed v (unitTables name i) player pos (BitVec.ofNat 64 t) ≠
          embed v zeroTables player pos (BitVec.ofNat 64 t) := by
      intro n hn h1
      refine ⟨n, _, 0, hn, hpos, fun he => ?_⟩
      have h0 := embedVal_zero v (if name = .position then i else 0) n
      unfold embedVal at h0 h1
      rw [he, h0] at h1
      cases h1
    unfold rowCheck at hc
    dsimp only at hc
    split at hc
    · exact fin padId (.inl rfl) (by simpa using hc)
    · rename_i e _
      simp only [Bool.and_eq_true] at hc
      obtain ⟨h1, h2⟩ := hc
      split at h2
      · rename_i n hn
        exact fin n (.inr ⟨e, loggedB_ok h1, hn⟩) (by simpa using h2)
      · cases h2

/-- **C150.** So not every row can be used: the basic and convolutional models never use the rows 1-3 of the table of types
(and see no types at all), the ordered model never the row 0 of the same table, nor the rows of the red fives. -/
theorem C150_rows_violated (v : Variant) : ∃ name i, i < tableSize v name ∧ ¬ Influences v name i := by
  cases v with
  | basic => exact ⟨.type, 1, by decide, fun h => (C150_rows_partial .basic .type 1 (by decide)).1 h (by decide)⟩
  | conv => exact ⟨.type, 1, by decide, fun h => (C150_rows_partial .conv .type 1 (by decide)).1 h (by decide)⟩
  | ordered => exact ⟨.type, 0, by decide, fun h => (C150_rows_partial .ordered .type 0 (by decide)).1 h (by decide)⟩

/-! ### samples and networks -/

/-- the tokens of a round are of this form if the melds of the log have existing tiles -/
theorem tokens_logged {est : Estimate} {sh : List Int → Except PyErr Int} {g : GameInfo} {a : InitAttr} {c : RoundCfg}
    {s0 : RoundSt} (hi : initRound est sh g a = .ok (c, s0)) {acts : List Act} {s : RoundSt} (hr : Reached c s0 acts s)
    (hw : ∀ p code, .call p code ∈ acts → WellFormed code) : ∀ n ∈ s.encoding_tokens, LogToken n := by
  obtain ⟨d⟩ := initRound_ok hi
  revert hw
  refine hr.induct (P := fun acts s => (∀ p code, .call p code ∈ acts → WellFormed code) → ∀ n ∈ s.encoding_tokens, LogToken n) ?_ ?_
  · rw [congrArg RoundSt.encoding_tokens d.state_eq]
    intro _ n hn
    simp at hn
  · intro acts s act s' hr ih he hw
    have ih := ih fun p code h => hw p code (List.mem_append.2 (.inl h))
    have snoc : ∀ (e : TokenEvent) (tok : Nat), LoggedEvent e → e.token = .ok tok →
        ∀ n ∈ s.encoding_tokens ++ [tok], LogToken n := by
      intro e tok hv ht n hn
      rcases List.mem_append.1 hn with h | h
      · exact ih n h
      · rw [List.mem_singleton.1 h]
        exact .inr ⟨e, hv, ht⟩
    cases he with
    | @dora t _ h1 h2 => exact snoc (.dora (t / 4)) _ (show t / 4 < 34 by omega) h2
    | declare => exact ih
    | @accept p _ _ _ _ h1 h2 h3 h4 h5 h6 => exact snoc (.reach p) _ trivial h6
    | draw hp e =>
      rw [e.state_eq]
      exact ih
    | @discard p t _ hp e =>
      rw [e.state_eq]
      have := e.tile_lt
      exact snoc (.discard p (t / 4) (e.a == t)) _ ⟨hp, by omega⟩ e.token_eq
    | @call p code _ e =>
      rw [e.state_eq]
      exact snoc (.naki p code) _ (hw p code (by simp)) e.token_eq

theorem rowBase_logged {v : Variant} {s : RoundSt} {o : StateObj} {e q : Nat} {row : Row}
    (ht : ∀ n ∈ s.encoding_tokens, LogToken n) (h : RowBase v s s.encoding_tokens o e q row) : ∀ n ∈ row.tokens, LogToken n := by
  obtain ⟨_, hr, _⟩ := h
  intro n hn
  obtain ⟨i, hi, rfl⟩ := List.getElem_of_mem hn
  have := hr.2 i (by rw [← hr.1]; exact hi)
  rw [List.getElem?_eq_getElem hi] at this
  rw [Option.some.inj this]
  split
  · rw [List.getD_eq_getElem?_getD]
    cases hg : s.encoding_tokens[i]? with
    | none => exact .inl rfl
    | some t => exact ht t (List.mem_of_getElem? hg)
  · exact .inl rfl

/-- **C150.** The tokens of all samples of a round are tokens of events with existing tiles, or padding, if the melds of the
log are such. -/
theorem C150_samples (v : Variant) (est : Estimate) (sh : List Int → Except PyErr Int) (g : GameInfo) (a : InitAttr)
    (evs : List Ev) (s : RoundSt) (d c p : Batch) (h : processRound est sh g a evs = .ok s)
    (hw : ∀ w code, .naki (.ok code) w ∈ evs → WellFormed code)
    (hb : buildTensors v s s.halfturns s.encoding_tokens = .ok (d, c, p)) :
    (∀ row ∈ d.encodings, ∀ n ∈ row, LogToken n) ∧ (∀ row ∈ c.encodings, ∀ n ∈ row, LogToken n) ∧
    ∀ row ∈ p.encodings, ∀ n ∈ row, LogToken n := by
  obtain ⟨cfg, s0, acts, rest, hi, he, hm, _, hr⟩ := accepted_reached h
  have ht := tokens_logged hi hr (by
    intro q code hq
    have : some (.call q code) ∈ (evs.take acts.length).map Ev.act := by
      rw [hm]
      exact List.mem_map.2 ⟨_, hq, rfl⟩
    obtain ⟨ev, hev, hact⟩ := List.mem_map.1 this
    have hev := List.mem_of_mem_take hev
    unfold Ev.act at hact
    split at hact <;> simp only [Option.some.injEq, Act.call.injEq, reduceCtorEq] at hact
    rw [← hact.2]
    exact hw _ _ hev)
  have hf := fourLists_reached hi hr
  have key : ∀ {f : HalfTurn → Bool} {t : HalfTurn} {rows : List Row}, t ∈ s.halfturns.filter f →
      RowsOf v s s.encoding_tokens t rows → ∀ r ∈ rows, ∀ n ∈ r.tokens, LogToken n := by
    intro f t rows hm h r hr
    obtain ⟨q, hb⟩ := rowsOf_base (hf _ ((List.mem_filter.1 hm).1)) h r hr
    exact rowBase_logged ht hb
  obtain ⟨⟨r1, e1, h1, _⟩, ⟨r2, e2, h2⟩, ⟨g3, e3, h3, _⟩⟩ := head_rows hf hb
  rw [e1, e2, e3]
  refine ⟨?_, ?_, ?_⟩ <;> intro row hrow <;> obtain ⟨r, hr, rfl⟩ := List.mem_map.1 hrow
  · obtain ⟨t, ht, hR⟩ := h1.mem_right hr
    exact key ht hR r (by simp)
  · obtain ⟨t, ht, hR⟩ := h2.mem_right hr
    exact key ht hR r (by simp)
  · obtain ⟨g, hg, hr⟩ := List.mem_flatten.1 hr
    obtain ⟨t, ht, hR⟩ := h3.mem_right hg
    exact key ht hR r hr

/-- **C150.** The dead rows have no influence on logits and loss, with or without dropout, so they are never trained. -/
theorem C150_network {v : Variant} {h : HeadName} {B : ℕ} (gelu : ℝ → ℝ) (p p' : Params v)
    (he : p.tables.empty = p'.tables.empty) (hrow : ∀ name i, LiveRow v name i → p.tables.row name i = p'.tables.row name i)
    (hp : p' = { p with tables := p'.tables }) (X : Input v h B)
    (hX : ∀ b t, ∃ n, LogToken n ∧ X.tokens b t = BitVec.ofNat 64 n) :
    run gelu p X = run gelu p' X ∧ ∀ r, runDrop gelu p r X = runDrop gelu p' r X := by
  have key : ∀ b t, embed v p.tables (X.player b) (t : Fin 150).val (X.tokens b t) =
      embed v p'.tables (X.player b) t.val (X.tokens b t) := by
    intro b t
    obtain ⟨n, hn, e⟩ := hX b t
    rw [e]
    exact C150_dead v _ _ he hrow _ _ t.isLt n hn
  have hemb : embedAll p X = embedAll p' X := by
    unfold embedAll
    have e1 : (∀ b (t : Fin 150), ∃ e, embed v p.tables (X.player b) t.val (X.tokens b t) = .ok e) ↔
        ∀ b (t : Fin 150), ∃ e, embed v p'.tables (X.player b) t.val (X.tokens b t) = .ok e := by
      constructor <;> intro h b t <;> have := h b t
      · rwa [key] at this
      · rwa [key]
    simp only [key]
    by_cases h : ∀ b (t : Fin 150), ∃ e, embed v p'.tables (X.player b) t.val (X.tokens b t) = .ok e
    · rw [if_pos h, if_pos (e1.2 h)]
    · rw [if_neg h, if_neg (fun h' => h (e1.1 h'))]
  obtain ⟨tb, en, sn, dc, ln, hd⟩ := p
  obtain ⟨tb', en', sn', dc', ln', hd'⟩ := p'
  simp only [Params.mk.injEq, true_and] at hp
  obtain ⟨rfl, rfl, rfl, rfl, rfl⟩ := hp
  constructor
  · unfold run
    rw [hemb]
    rfl
  · intro r
    unfold runDrop
    rw [hemb]
    rfl

/-- C150 is not vacuous: the rows of the three red fives are dead in the ordered model and used in the others, and there are
parameters that differ there -/
example : deadRows .ordered .tile = [34, 35, 36] ∧ Influences .conv .tile 36 ∧ Influences .ordered .tile 33 :=
  ⟨rfl, (C150_rows_partial .conv .tile 36 (by decide)).2 (by decide), (C150_rows_partial .ordered .tile 33 (by decide)).2 (by decide)⟩

end MJ
