import Verif.Model.Xml
import Verif.Proofs.Except
/-!
C28-C32, C54, C55: documents, game types, rounds.
-/
namespace MJ

/-! ### C28 -/

/-- the events that matter: everything but the five bookkeeping tags -/
def relevant (is : List Item) : List Item := is.filter (fun e => decide (e.tag ∉ bookkeeping))

/-- a list of events that is one round -/
def IsRound (r : List Item) : Prop := ∃ i rest, r = i :: rest ∧ i.tag = "INIT" ∧ ∀ e ∈ rest, e.tag ≠ "INIT"

theorem groupRounds_ok (es : List Item) (rounds : List (List Item)) (cur : Option (List Item)) (res : List (List Item))
    (h : groupRounds es rounds cur = .ok res) (hr : ∀ r ∈ rounds, IsRound r) (hc : ∀ c, cur = some c → IsRound c) :
    res.flatten = rounds.flatten ++ cur.getD [] ++ relevant es ∧ ∀ r ∈ res, IsRound r := by
  induction es generalizing rounds cur with
  | nil =>
    cases cur with
    | none => simp [groupRounds] at h; subst h; simp [relevant]; exact hr
    | some c =>
      simp [groupRounds] at h
      subst h
      simp only [relevant, List.flatten_append, List.filter_nil, List.append_nil, Option.getD_some, List.flatten_cons,
        List.flatten_nil, List.mem_append, List.mem_singleton, true_and]
      rintro r (h | rfl)
      · exact hr r h
      · exact hc r rfl
  | cons e es ih =>
    unfold groupRounds at h
    split at h
    · rename_i hb
      have := ih rounds cur h hr hc
      rw [this.1]
      refine ⟨?_, this.2⟩
      simp [relevant, hb]
    · rename_i hb
      have hrel : relevant (e :: es) = e :: relevant es := by simp [relevant, hb]
      split at h
      · simp at h
      · split at h
        · rename_i hi
          have hnew : ∀ c, some [e] = some c → IsRound c := by
            intro c hc; cases hc; exact ⟨e, [], rfl, hi, by simp⟩
          cases cur with
          | none =>
            have := ih rounds (some [e]) h hr hnew
            rw [this.1, hrel]
            exact ⟨by simp, this.2⟩
          | some c =>
            have := ih (rounds ++ [c]) (some [e]) h (by
              simp only [List.mem_append, List.mem_singleton]
              rintro r (h | rfl)
              · exact hr r h
              · exact hc r rfl) hnew
            rw [this.1, hrel]
            exact ⟨by simp, this.2⟩
        · rename_i hi
          cases cur with
          | none => simp at h
          | some c =>
            have := ih rounds (some (c ++ [e])) h hr (by
              intro c' hc'
              cases hc'
              obtain ⟨i, rest, e1, e2, e3⟩ := hc c rfl
              subst e1
              refine ⟨i, rest ++ [e], rfl, e2, ?_⟩
              simp only [List.mem_append, List.mem_singleton]
              rintro x (hx | rfl)
              · exact e3 x hx
              · exact hi)
            rw [this.1, hrel]
            exact ⟨by simp, this.2⟩

/-- C28: the rounds are consecutive pieces of the event stream, each starting at an INIT and
containing no other INIT, and together they are the whole stream without bookkeeping. -/
theorem C28_rounds_partition (pi : PyInt) (root : Elem) (g : GameInfo) (rounds : List (List Item))
    (h : getRounds pi root = .ok (g, rounds)) :
    rounds.flatten = relevant (traverse root) ∧ ∀ r ∈ rounds, IsRound r := by
  simp only [getRounds, bind_ok, pure_ok] at h
  obtain ⟨g', _, rounds', h2, e⟩ := h
  cases e
  have := groupRounds_ok _ [] none _ h2 (by simp) (by simp)
  exact ⟨by simpa using this.1, this.2⟩

/-- The stream is in document order: an element comes before its children, and a child with
everything inside it comes before the next child. -/
theorem C28_document_order (t : String) (a : List (String × String)) (cs : List Elem) :
    traverse (.node t a cs) = ⟨t, a⟩ :: (cs.map traverse).flatten := by
  have : ∀ cs, traverseAll cs = (cs.map traverse).flatten := by
    intro cs
    induction cs with
    | nil => rfl
    | cons c cs ih => simp [traverseAll, ih]
  rw [traverse, this]

/-! ### C29 -/

theorem groupRounds_some (es : List Item) (rounds : List (List Item)) (c : List Item) :
    if ∃ e ∈ es, e.tag = "BYE" then groupRounds es rounds (some c) = .error .invalidGame
    else ∃ res, groupRounds es rounds (some c) = .ok res := by
  induction es generalizing rounds c with
  | nil => simp [groupRounds]
  | cons e es ih =>
    unfold groupRounds
    by_cases hb : e.tag ∈ bookkeeping
    · have : e.tag ≠ "BYE" := by intro hh; rw [hh] at hb; revert hb; decide
      simp only [hb, if_true, List.mem_cons, exists_eq_or_imp, this, false_or]
      exact ih rounds c
    · simp only [hb, if_false]
      by_cases hy : e.tag = "BYE"
      · simp [hy]
      · simp only [hy, if_false, List.mem_cons, exists_eq_or_imp, false_or]
        by_cases hi : e.tag = "INIT"
        · simp only [hi, if_true]
          exact ih _ _
        · simp only [hi, if_false]
          exact ih _ _

/-- what the document says about the rounds, apart from the game type -/
inductive Grouping where
  | fine | bye | early

/-- first event neither INIT nor BYE: `early`; otherwise a BYE anywhere: `bye`; otherwise `fine` -/
def grouping (is : List Item) : Grouping :=
  match relevant is with
  | [] => .fine
  | e :: es => if e.tag ≠ "INIT" ∧ e.tag ≠ "BYE" then .early else if "BYE" ∈ (e :: es).map (·.tag) then .bye else .fine

theorem bye_relevant (es : List Item) : (∃ e ∈ relevant es, e.tag = "BYE") ↔ ∃ e ∈ es, e.tag = "BYE" := by
  constructor
  · rintro ⟨e, h1, h2⟩; exact ⟨e, (List.mem_filter.1 h1).1, h2⟩
  · rintro ⟨e, h1, h2⟩
    refine ⟨e, List.mem_filter.2 ⟨h1, ?_⟩, h2⟩
    rw [h2]; decide

theorem groupRounds_none (es : List Item) :
    match grouping es with
    | .early => groupRounds es [] none = .error .attribute
    | .bye => groupRounds es [] none = .error .invalidGame
    | .fine => ∃ res, groupRounds es [] none = .ok res := by
  induction es with
  | nil => simp [grouping, relevant, groupRounds]
  | cons e es ih =>
    unfold groupRounds
    by_cases hb : e.tag ∈ bookkeeping
    · have hrel : grouping (e :: es) = grouping es := by simp [grouping, relevant, hb]
      simp only [hb, if_true, hrel]
      exact ih
    · have hrel : relevant (e :: es) = e :: relevant es := by simp [relevant, hb]
      simp only [hb, if_false, grouping, hrel]
      by_cases hy : e.tag = "BYE"
      · simp [hy]
      · by_cases hi : e.tag = "INIT"
        · simp only [hi, ne_eq, not_true_eq_false, false_and, if_false, if_true]
          have := groupRounds_some es [] [e]
          rw [if_neg (show ¬ ("INIT" = "BYE") by decide)]
          have hmem : "BYE" ∈ (e :: relevant es).map (·.tag) ↔ ∃ x ∈ es, x.tag = "BYE" := by
            rw [← bye_relevant]
            simp [hi]
          by_cases hx : ∃ x ∈ es, x.tag = "BYE"
          · rw [if_pos hx] at this
            rw [if_pos (hmem.2 hx)]
            exact this
          · rw [if_neg hx] at this
            rw [if_neg (fun h => hx (hmem.1 h))]
            exact this
        · simp [hy, hi]

/-- a document has a usable game type -/
def HasGameType (pi : PyInt) (root : Elem) (go : Nat) : Prop :=
  ∃ e v, root.children.filter (fun e => e.tag == "GO") = [e] ∧ e.attrib.lookup "type" = some v ∧
    ∃ n, pi v = some n ∧ gameBits n = go

theorem gameType_iff (pi : PyInt) (root : Elem) (g : GameInfo) :
    gameType pi root = .ok g ↔ HasGameType pi root g.go := by
  unfold gameType HasGameType
  generalize root.children.filter (fun e => e.tag == "GO") = L
  rcases L with _ | ⟨e, _ | ⟨e', l⟩⟩
  · simp
  · simp only [List.cons.injEq, and_true]
    cases hv : e.attrib.lookup "type" with
    | none =>
      simp only [reduceCtorEq, false_iff]
      rintro ⟨e', v, rfl, h2, _⟩
      rw [hv] at h2; cases h2
    | some v =>
      constructor
      · intro h
        unfold parseInt at h
        cases hp : pi v with
        | none => simp [hp] at h
        | some n =>
          simp only [hp] at h
          cases h
          exact ⟨e, v, rfl, hv, n, hp, rfl⟩
      · rintro ⟨e', v', rfl, h2, n, h3, h4⟩
        rw [hv] at h2
        cases h2
        simp [parseInt, h3, h4]
  · simp

theorem gameType_error (pi : PyInt) (root : Elem) (h : ¬ ∃ go, HasGameType pi root go) :
    gameType pi root = .error .value := by
  have key : ∀ e, gameType pi root = .error e → e = .value := by
    intro e he
    unfold gameType at he
    split at he
    · split at he
      · split at he
        · simp at he
        · simpa using he.symm
      · simpa using he.symm
    · simpa using he.symm
  cases hg : gameType pi root with
  | ok g => exact absurd ⟨g.go, (gameType_iff pi root g).1 hg⟩ h
  | error e => rw [key e hg]

/-- C29: exactly when `_get_rounds` rejects a document, and with which exception. -/
theorem C29_rejections (pi : PyInt) (root : Elem) :
    ((¬ ∃ go, HasGameType pi root go) → getRounds pi root = .error .value) ∧
    (∀ go, HasGameType pi root go →
      match grouping (traverse root) with
      | .early => getRounds pi root = .error .attribute
      | .bye => getRounds pi root = .error .invalidGame
      | .fine => ∃ rounds, getRounds pi root = .ok (⟨go⟩, rounds)) := by
  constructor
  · intro h
    simp [getRounds, gameType_error pi root h, bind, Except.bind]
  · intro go h
    have hg := (gameType_iff pi root ⟨go⟩).2 h
    have := groupRounds_none (traverse root)
    revert this
    cases grouping (traverse root) with
    | early => intro this; simp [getRounds, hg, this, bind, Except.bind]
    | bye => intro this; simp [getRounds, hg, this, bind, Except.bind]
    | fine =>
      rintro ⟨res, this⟩
      exact ⟨res, by simp [getRounds, hg, this, bind, Except.bind, pure, Except.pure]⟩

/-! ### C30-C31 -/

/-- `gameBits` is what Python's `&` sees of a number: bit `i` of its two's complement is the
parity of `n // 2 ** i`. -/
theorem C29_negative_types (n : Int) (i : Nat) (hi : i < 8) :
    (gameBits n).testBit i = decide (n / 2 ^ i % 2 = 1) := by
  rw [Nat.testBit_eq_decide_div_mod_eq, decide_eq_decide]
  unfold gameBits
  have : i = 0 ∨ i = 1 ∨ i = 2 ∨ i = 3 ∨ i = 4 ∨ i = 5 ∨ i = 6 ∨ i = 7 := by omega
  rcases this with rfl | rfl | rfl | rfl | rfl | rfl | rfl | rfl <;> split <;> omega

/-- C31: each field is its own bit of the game type. -/
theorem C31_fields (g : GameInfo) :
    g.against_human = (g.go.testBit 0).toNat ∧ g.no_red = (g.go.testBit 1).toNat ∧
    g.kansaki = (g.go.testBit 2).toNat ∧ g.tonnan = (g.go.testBit 3).toNat ∧
    g.three_players = (g.go.testBit 4).toNat ∧ g.fast = (g.go.testBit 6).toNat ∧
    g.n_rounds = (if g.go.testBit 3 then 8 else 4) ∧
    g.level = (g.go.testBit 5).toNat + 4 * (g.go.testBit 7).toNat := by
  have key : ∀ i, (g.go &&& 2 ^ i) >>> i = (g.go.testBit i).toNat := by
    intro i
    rw [Nat.shiftRight_and_distrib, Nat.shiftRight_eq_div_pow (2 ^ i) i, Nat.div_self (by exact Nat.two_pow_pos i),
      Nat.and_one_is_mod, Nat.testBit, Nat.and_comm, Nat.and_one_is_mod]
    generalize g.go >>> i = x
    rcases Nat.mod_two_eq_zero_or_one x with h | h <;> simp [h]
  have k0 := key 0
  have k3 := key 3
  refine ⟨by simpa [GameInfo.against_human] using k0, key 1, key 2, k3, key 4, key 6, ?_, ?_⟩
  · have : g.tonnan = (g.go.testBit 3).toNat := k3
    rw [GameInfo.n_rounds, this]
    cases g.go.testBit 3 <;> rfl
  · unfold GameInfo.level
    apply Nat.eq_of_testBit_eq
    intro i
    have e : (g.go.testBit 5).toNat + 4 * (g.go.testBit 7).toNat =
        (g.go.testBit 5).toNat ||| (g.go.testBit 7).toNat <<< 2 := by
      cases g.go.testBit 5 <;> cases g.go.testBit 7 <;> rfl
    rw [e, Nat.testBit_shiftRight, Nat.testBit_and, Nat.testBit_or, Nat.testBit_shiftLeft]
    by_cases h0 : i = 0
    · subst h0
      cases g.go.testBit 5 <;> cases g.go.testBit 7 <;> decide
    · by_cases h1 : i = 1
      · subst h1
        cases g.go.testBit 5 <;> cases g.go.testBit 6 <;> cases g.go.testBit 7 <;> simp_all <;> decide
      · by_cases h2 : i = 2
        · subst h2
          cases g.go.testBit 5 <;> cases g.go.testBit 7 <;> decide
        · have hA : (0xA0 : Nat).testBit (5 + i) = false := by
            apply Nat.testBit_lt_two_pow
            calc 0xA0 < 2 ^ 8 := by decide
              _ ≤ 2 ^ (5 + i) := Nat.pow_le_pow_right (by decide) (by omega)
          have hB : ∀ b : Bool, b.toNat.testBit i = false := by
            intro b
            apply Nat.testBit_lt_two_pow
            calc b.toNat < 2 ^ 1 := by cases b <;> decide
              _ ≤ 2 ^ i := Nat.pow_le_pow_right (by decide) (by omega)
          have hC : ∀ b : Bool, b.toNat.testBit (i - 2) = false := by
            intro b
            apply Nat.testBit_lt_two_pow
            calc b.toNat < 2 ^ 1 := by cases b <;> decide
              _ ≤ 2 ^ (i - 2) := Nat.pow_le_pow_right (by decide) (by omega)
          simp [hA, hB, hC]

/-- a game the processor is willing to read -/
def Acceptable (g : GameInfo) : Prop :=
  g.go.testBit 0 = true ∧ g.go.testBit 1 = false ∧ g.go.testBit 2 = false ∧ g.go.testBit 4 = false

/-- C30: a document with readable rounds is processed only if its type has the human bit set and
the no-red, kansaki and three-player bits clear; otherwise InvalidGameException is raised,
whatever the rounds contain. -/
theorem C30_only_standard_games (pi : PyInt) (est : Estimate) (sh : List Int → Except PyErr Int) (root : Elem)
    (g : GameInfo) (rounds : List (List Item)) (h : getRounds pi root = .ok (g, rounds)) :
    (¬ Acceptable g → process pi est sh root = .error .invalidGame) ∧
    (Acceptable g → process pi est sh root = rounds.mapM (runRound pi est sh g)) := by
  have f := C31_fields g
  have hp : process pi est sh root =
      (if g.against_human ≠ 1 then .error .invalidGame
       else if g.no_red = 1 then .error .invalidGame
       else if g.kansaki = 1 then .error .invalidGame
       else if g.three_players = 1 then .error .invalidGame
       else rounds.mapM (runRound pi est sh g)) := by
    simp only [process, h, bind, Except.bind, throw, throwThe, MonadExceptOf.throw]
    repeat' split
    all_goals simp_all
  rw [hp, f.1, f.2.1, f.2.2.1, f.2.2.2.2.1]
  unfold Acceptable
  cases g.go.testBit 0 <;> cases g.go.testBit 1 <;> cases g.go.testBit 2 <;> cases g.go.testBit 4 <;> simp

/-- C30: any result at all means an acceptable game. -/
theorem C30_result_means_standard (pi : PyInt) (est : Estimate) (sh : List Int → Except PyErr Int) (root : Elem)
    (res : List RoundSt) (h : process pi est sh root = .ok res) :
    ∃ g rounds, getRounds pi root = .ok (g, rounds) ∧ Acceptable g := by
  cases hg : getRounds pi root with
  | error e => simp [process, hg, bind, Except.bind] at h
  | ok gr =>
    obtain ⟨g, rounds⟩ := gr
    refine ⟨g, rounds, rfl, ?_⟩
    refine Decidable.byContradiction (p := Acceptable g) (dec := by unfold Acceptable; infer_instance) (fun hn => ?_)
    rw [(C30_only_standard_games pi est sh root g rounds hg).1 hn] at h
    cases h

example : Acceptable ⟨161⟩ ∧ ¬ Acceptable ⟨16⟩ := by unfold Acceptable; decide

/-! ### C32 -/

/-- number of rounds `j` from `cur` (inclusive) to `total` (exclusive) in which seat `i` deals -/
def dealerships (cur total i : Nat) : Nat := ((List.range total).filter (fun j => decide (cur ≤ j ∧ j % 4 = i))).length

theorem dealerships_eq (cur : Nat) (i : Nat) (hi : i < 4) (tot : Nat) (ht : tot = 4 ∨ tot = 8) (hc : cur ≤ tot) :
    ((dealerships cur tot i : Nat) : Int) = ((tot : Int) - cur + i) / 4 := by
  have : ∀ tot ∈ [4, 8], ∀ cur < 9, ∀ i < 4, cur ≤ tot → ((dealerships cur tot i : Nat) : Int) = ((tot : Int) - cur + i) / 4 := by
    decide +kernel
  exact this tot (by rcases ht with rfl | rfl <;> simp) cur (by omega) i hi hc

/-- C32: entry `i` is the number of future rounds in which seat `i` deals, and the entries add up. -/
theorem C32_dealerships (g : GameInfo) (cur : Nat) (hc : cur ≤ g.n_rounds) :
    (RoundInfo.init g cur).parent_rounds_remaining =
      (List.range 4).map (fun i => ((dealerships cur g.n_rounds i : Nat) : Int)) := by
  have hn : g.n_rounds = 4 ∨ g.n_rounds = 8 := by
    rw [(C31_fields g).2.2.2.2.2.2.1]; split <;> simp
  unfold RoundInfo.init
  simp only []
  apply List.map_congr_left
  intro i hi
  rw [dealerships_eq cur i (by simpa using hi) g.n_rounds hn hc]
  simp [GameInfo.n_rounds]

/-- C32: the sum, for every current round. -/
theorem C32_sum (g : GameInfo) (cur : Nat) :
    (RoundInfo.init g cur).parent_rounds_remaining.sum = (RoundInfo.init g cur).remaining_rounds := by
  simp [RoundInfo.init, List.range_succ]
  omega

example : (RoundInfo.init ⟨8⟩ 5).parent_rounds_remaining = [0, 1, 1, 1] := by decide

/-! ### C54, C55 -/

theorem runEvents_cons (c : RoundCfg) (e : Ev) (es : List Ev) (s : RoundSt) (hne : ∀ a sc, e ≠ .result a sc) :
    runEvents c (e :: es) s = match step c s e with
      | .error x => .error x
      | .ok s => runEvents c es s := by
  cases e <;> first | rfl | exact absurd rfl (hne _ _)

theorem runEvents_shape (c : RoundCfg) (evs : List Ev) (s s' : RoundSt) (res : Option (List Ev))
    (h : runEvents c evs s = .ok (s', res)) :
    (res = none ∧ ∀ e ∈ evs, (∀ a sc, e ≠ .result a sc) ∧ e ≠ .other) ∨
    ∃ pre a sc rest, evs = pre ++ .result a sc :: rest ∧ res = some (.result a sc :: rest) ∧
      ∀ e ∈ pre, (∀ a sc, e ≠ .result a sc) ∧ e ≠ .other := by
  induction evs generalizing s with
  | nil => simp [runEvents] at h; exact .inl ⟨h.2.symm, by simp⟩
  | cons e es ih =>
    by_cases hres : ∃ a sc, e = .result a sc
    · obtain ⟨a, sc, rfl⟩ := hres
      simp [runEvents] at h
      exact .inr ⟨[], a, sc, es, rfl, h.2.symm, by simp⟩
    · have hne : ∀ a sc, e ≠ .result a sc := fun a sc he => hres ⟨a, sc, he⟩
      rw [runEvents_cons c e es s hne] at h
      cases hs : step c s e with
      | error x => simp [hs] at h
      | ok s1 =>
        simp only [hs] at h
        have hno : e ≠ .other := by rintro rfl; simp [step] at hs
        rcases ih s1 h with ⟨h1, h2⟩ | ⟨pre, a, sc, rest, h1, h2, h3⟩
        · refine .inl ⟨h1, ?_⟩
          intro x hx
          rcases List.mem_cons.1 hx with rfl | hx
          · exact ⟨hne, hno⟩
          · exact h2 x hx
        · refine .inr ⟨e :: pre, a, sc, rest, by simp [h1], h2, ?_⟩
          intro x hx
          rcases List.mem_cons.1 hx with rfl | hx
          · exact ⟨hne, hno⟩
          · exact h3 x hx

theorem checkResults_ok (l : List Ev) (h : checkResults l = .ok ()) : ∀ e ∈ l, ∃ a sc, e = .result a (.ok sc) := by
  induction l with
  | nil => simp
  | cons e es ih =>
    unfold checkResults at h
    split at h
    · rename_i heq; cases heq
    · rename_i a sc es' heq
      cases heq
      cases sc with
      | error x => simp at h
      | ok v =>
        simp at h
        intro x hx
        rcases List.mem_cons.1 hx with rfl | hx
        · exact ⟨_, _, rfl⟩
        · exact ih h x hx
    · simp at h

/-- C54: in a round that is processed, every event is a known one, the last part consists of one or
more AGARI/RYUUKYOKU events with readable scores, and no such event occurs before it. -/
theorem C54_ends_with_result (est : Estimate) (sh : List Int → Except PyErr Int) (g : GameInfo) (a : InitAttr)
    (evs : List Ev) (s : RoundSt) (h : processRound est sh g a evs = .ok s) :
    ∃ pre fin, evs = pre ++ fin ∧ fin ≠ [] ∧ (∀ e ∈ fin, ∃ w sc, e = .result w (.ok sc)) ∧
      ∀ e ∈ pre, (∀ w sc, e ≠ .result w sc) ∧ e ≠ .other := by
  simp only [processRound, bind_ok] at h
  obtain ⟨⟨c, s0⟩, _, ⟨s1, res⟩, h2, h3⟩ := h
  cases res with
  | none => simp at h3
  | some rest =>
    simp only [bind_ok] at h3
    obtain ⟨_, h4, _⟩ := h3
    rcases runEvents_shape c evs s0 s1 _ h2 with ⟨h5, _⟩ | ⟨pre, w, sc, rest', h5, h6, h7⟩
    · cases h5
    · cases h6
      exact ⟨pre, _, h5, by simp, checkResults_ok _ h4, h7⟩

/-- C54: a round whose events up to the end of the loop are processed, but that has no result
event, or has another event after the first result event (the results before it being
readable), raises AssertionError; an unknown tag that is reached raises ValueError. -/
theorem C54_errors (est : Estimate) (sh : List Int → Except PyErr Int) (g : GameInfo) (a : InitAttr)
    (c : RoundCfg) (s0 s1 : RoundSt) (pre : List Ev) (hi : initRound est sh g a = .ok (c, s0))
    (hrun : runEvents c pre s0 = .ok (s1, none)) :
    processRound est sh g a pre = .error .assertion ∧
    (∀ rest, processRound est sh g a (pre ++ .other :: rest) = .error .value) ∧
    (∀ w sc mid e rest, (∀ x ∈ mid, ∃ w sc, x = .result w (.ok sc)) → (∀ w sc, e ≠ .result w sc) →
      processRound est sh g a (pre ++ .result w (.ok sc) :: (mid ++ e :: rest)) = .error .assertion) := by
  have happ : ∀ tail, runEvents c (pre ++ tail) s0 = runEvents c tail s1 := by
    intro tail
    clear hi
    induction pre generalizing s0 with
    | nil => simp [runEvents] at hrun; rw [hrun]; rfl
    | cons e es ih =>
      have hne : ∀ w sc, e ≠ .result w sc := by
        rintro w sc rfl
        simp [runEvents] at hrun
      rw [List.cons_append, runEvents_cons c e _ s0 hne]
      rw [runEvents_cons c e es s0 hne] at hrun
      cases hs : step c s0 e with
      | error x => simp [hs] at hrun
      | ok s' =>
        simp only [hs] at hrun ⊢
        exact ih s' hrun
  refine ⟨?_, ?_, ?_⟩
  · simp [processRound, hi, hrun, bind, Except.bind]
  · intro rest
    simp [processRound, hi, happ, runEvents, step, bind, Except.bind]
  · intro w sc mid e rest hm he
    have hck : checkResults (.result w (.ok sc) :: (mid ++ e :: rest)) = .error .assertion := by
      simp only [checkResults]
      induction mid with
      | nil => cases e <;> first | rfl | exact absurd rfl (he _ _)
      | cons x xs ih =>
        obtain ⟨w', sc', rfl⟩ := hm x (by simp)
        simp only [List.cons_append, checkResults]
        exact ih (fun x hx => hm x (by simp [hx]))
    simp only [processRound, hi, happ, runEvents, bind, Except.bind, hck]

theorem mapM_ok_iff {α β : Type} (f : α → Except PyErr β) (l : List α) (r : List β) :
    l.mapM f = .ok r ↔ r.length = l.length ∧ ∀ i (h : i < l.length) , ∃ b, r[i]? = some b ∧ f l[i] = .ok b := by
  induction l generalizing r with
  | nil =>
    simp only [List.mapM_nil, pure_ok, List.length_nil]
    constructor
    · rintro rfl; simp
    · intro h; exact (List.eq_nil_of_length_eq_zero h.1).symm
  | cons x xs ih =>
    simp only [List.mapM_cons, bind_ok, pure_ok]
    constructor
    · rintro ⟨b, hb, bs, hbs, rfl⟩
      obtain ⟨h1, h2⟩ := (ih bs).1 hbs
      refine ⟨by simp [h1], ?_⟩
      intro i hi
      cases i with
      | zero => exact ⟨b, rfl, hb⟩
      | succ i => exact h2 i (by simpa using hi)
    · rintro ⟨h1, h2⟩
      cases r with
      | nil => simp at h1
      | cons b bs =>
        obtain ⟨b', e1, e2⟩ := h2 0 (by simp)
        simp at e1
        subst e1
        refine ⟨b, e2, bs, (ih bs).2 ⟨by simpa using h1, ?_⟩, rfl⟩
        intro i hi
        exact h2 (i + 1) (by simpa using hi)

/-- C55: the result has one entry per round, and entry `i` is the result of round `i` alone:
it is a function of the game type and of that round's events. -/
theorem C55_rounds_independent (pi : PyInt) (est : Estimate) (sh : List Int → Except PyErr Int) (root : Elem)
    (g : GameInfo) (rounds : List (List Item)) (hg : getRounds pi root = .ok (g, rounds)) (ha : Acceptable g)
    (res : List RoundSt) :
    process pi est sh root = .ok res ↔
      res.length = rounds.length ∧
      ∀ i (h : i < rounds.length), ∃ s, res[i]? = some s ∧ runRound pi est sh g rounds[i] = .ok s := by
  rw [(C30_only_standard_games pi est sh root g rounds hg).2 ha]
  exact mapM_ok_iff _ _ _

/-- C55: if some round raises, `process` raises. -/
theorem C55_round_error (pi : PyInt) (est : Estimate) (sh : List Int → Except PyErr Int) (root : Elem)
    (g : GameInfo) (rounds : List (List Item)) (hg : getRounds pi root = .ok (g, rounds)) (r : List Item)
    (hr : r ∈ rounds) (e : PyErr) (he : runRound pi est sh g r = .error e) :
    ∃ e', process pi est sh root = .error e' := by
  cases hp : process pi est sh root with
  | error e' => exact ⟨e', rfl⟩
  | ok res =>
    obtain ⟨g', rounds', h1, h2⟩ := C30_result_means_standard pi est sh root res hp
    rw [hg] at h1
    cases h1
    obtain ⟨_, h4⟩ := (C55_rounds_independent pi est sh root g rounds hg h2 res).1 hp
    obtain ⟨i, hi, rfl⟩ := List.getElem_of_mem hr
    obtain ⟨s, _, h5⟩ := h4 i hi
    rw [he] at h5
    cases h5

/-- a document with one empty round -/
example : (getRounds (fun _ => some 161) (.node "mjloggm" []
      [.node "GO" [("type", "161")] [], .node "INIT" [] [], .node "AGARI" [] []])).toOption =
    some (⟨161⟩, [[⟨"INIT", []⟩, ⟨"AGARI", []⟩]]) := by decide +kernel

end MJ
