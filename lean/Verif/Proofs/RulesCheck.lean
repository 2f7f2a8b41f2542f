import Verif.Spec.RulesCheck
import Verif.Props.RoundLegal
/-!
The program of Spec/RulesCheck.lean decides `PlayedByRules`.
-/
namespace MJ
open Spec

theorem validB_iff (m : LogMeld) : m.validB = true ↔ m.Valid := by
  cases m <;> simp [LogMeld.validB, LogMeld.Valid, Nat.blt_eq, and_assoc]

theorem decode_encode (m : LogMeld) (hv : m.Valid) : LogMeld.decode m.encode = m := by
  cases m with
  | chi src k x y z w =>
    obtain ⟨h1, h2, h3, h4, h5, h6, h7⟩ := hv
    simp only [LogMeld.encode]
    unfold LogMeld.decode
    rw [if_pos (by omega)]
    congr 1 <;> omega
  | pon src k u w =>
    obtain ⟨h1, h2, h3, h4⟩ := hv
    simp only [LogMeld.encode]
    unfold LogMeld.decode
    rw [if_neg (by omega), if_pos (by omega)]
    congr 1 <;> omega
  | kakan src k u w =>
    obtain ⟨h1, h2, h3, h4⟩ := hv
    simp only [LogMeld.encode]
    unfold LogMeld.decode
    rw [if_neg (by omega), if_neg (by omega), if_pos (by omega)]
    congr 1 <;> omega
  | minkan src t =>
    obtain ⟨h1, h2, h3⟩ := hv
    simp only [LogMeld.encode]
    unfold LogMeld.decode
    rw [if_neg (by omega), if_neg (by omega), if_neg (by omega), if_neg (by omega)]
    congr 1 <;> omega
  | ankan t =>
    simp only [LogMeld.encode]
    unfold LogMeld.decode
    rw [if_neg (by omega), if_neg (by omega), if_neg (by omega), if_pos (by omega)]
    congr 1
    omega

theorem ofCode_iff (c : Nat) (m : LogMeld) : LogMeld.ofCode c = some m ↔ m.Valid ∧ c = m.encode := by
  unfold LogMeld.ofCode
  constructor
  · intro h
    simp only at h
    split at h
    · rename_i hc
      simp only [Bool.and_eq_true, beq_iff_eq] at hc
      cases h
      exact ⟨(validB_iff _).1 hc.1, hc.2.symm⟩
    · cases h
  · rintro ⟨h, rfl⟩
    simp only [decode_encode m h, (validB_iff m).2 h, beq_self_eq_true, Bool.and_self, if_true]

theorem ofCode_encode {m : LogMeld} (h : m.Valid) : LogMeld.ofCode m.encode = some m := (ofCode_iff _ _).2 ⟨h, rfl⟩

theorem ofCode_none {c : Nat} (h : LogMeld.ofCode c = none) (m : LogMeld) (hv : m.Valid) : c ≠ m.encode := by
  rintro rfl
  rw [ofCode_encode hv] at h
  cases h

theorem holdsR_eq (hai : Nat → List Nat) (p t : Nat) (rev : List Act) : holdsR hai p t rev = holdsB hai p t rev := by
  induction rev with
  | nil => simp [holdsR, holdsB]
  | cons a rev ih =>
    cases a with
    | draw q u =>
      by_cases h : q = p ∧ u = t
      · obtain ⟨rfl, rfl⟩ := h
        simp [holdsR, holdsB]
      · have h1 : (q == p && u == t) = false := by simpa using h
        have h2 : ¬ Act.draw q u = Act.draw p t := by simpa using h
        simp [holdsR, holdsB, ih, h1, h2, Act.loses, Act.discarded, Act.exposed]
    | discard q u =>
      by_cases h : q = p
      · subst h
        by_cases h2 : u = t
        · subst h2; simp [holdsR, holdsB, Act.loses, Act.discarded]
        · have h3 : ¬ t = u := fun e => h2 e.symm
          simp [holdsR, holdsB, Act.loses, Act.discarded, Act.exposed, h2, h3, ih]
      · simp [holdsR, holdsB, Act.loses, Act.discarded, Act.exposed, h, ih]
    | call q c =>
      by_cases h : q = p
      · subst h
        by_cases h2 : t ∈ exposedTiles c
        · simp [holdsR, holdsB, Act.loses, Act.discarded, Act.exposed, h2]
        · simp [holdsR, holdsB, Act.loses, Act.discarded, Act.exposed, h2, ih]
      · simp [holdsR, holdsB, Act.loses, Act.discarded, Act.exposed, h, ih]
    | dora u => simp [holdsR, holdsB, Act.loses, Act.discarded, Act.exposed, ih]
    | declare q => simp [holdsR, holdsB, Act.loses, Act.discarded, Act.exposed, ih]
    | accept q => simp [holdsR, holdsB, Act.loses, Act.discarded, Act.exposed, ih]

theorem holdsR_iff (hai : Nat → List Nat) (p t : Nat) (rev : List Act) : holdsR hai p t rev = true ↔ Holds hai rev.reverse p t := by
  rw [holdsR_eq, holdsB_iff]

theorem freshR_iff (t : Nat) (rev : List Act) : freshR t rev = true ↔
    t ∉ collect Act.drawnByAny rev.reverse ∧ t ∉ collect Act.doras rev.reverse := by
  induction rev with
  | nil => simp [freshR, collect]
  | cons a rev ih =>
    have e : ∀ f : Act → List Nat, collect f (a :: rev).reverse = collect f rev.reverse ++ f a := by
      intro f; simp [collect]
    rw [e, e]
    cases a <;> simp [freshR, ih, Act.drawnByAny, Act.doras] <;> tauto

theorem unseenR_iff (hai : Nat → List Nat) (first : Nat) (rev : List Act) (t : Nat) :
    unseenR hai first rev t = true ↔ Unseen hai first rev.reverse t := by
  have e : (∀ p < 4, t ∉ hai p) ↔ t ∉ hai 0 ∧ t ∉ hai 1 ∧ t ∉ hai 2 ∧ t ∉ hai 3 := by
    constructor
    · intro h; exact ⟨h 0 (by omega), h 1 (by omega), h 2 (by omega), h 3 (by omega)⟩
    · rintro ⟨h0, h1, h2, h3⟩ p hp
      have : p = 0 ∨ p = 1 ∨ p = 2 ∨ p = 3 := by omega
      rcases this with rfl | rfl | rfl | rfl <;> assumption
  unfold unseenR Unseen
  rw [e]
  simp only [Bool.and_eq_true, freshR_iff, Nat.blt_eq]
  simp
  tauto

theorem lastR_eq (rev : List Act) : lastR rev = lastMove rev.reverse := by
  induction rev with
  | nil => rfl
  | cons a rev ih =>
    unfold lastR lastMove
    rw [List.reverse_cons, List.filter_append]
    cases h : a.isMove
    · simp [h, ih, lastMove]
    · simp [h]

theorem mayFollowR_iff (hai : Nat → List Nat) (first : Nat) (rev : List Act) (x : Act) :
    mayFollowR hai first rev x = true ↔ MayFollow hai first rev.reverse x := by
  cases x with
  | dora t => exact unseenR_iff hai first rev t
  | declare p =>
    simp only [mayFollowR, MayFollow, lastR_eq, Bool.and_eq_true, Nat.blt_eq]
    generalize lastMove rev.reverse = l
    rcases l with _ | ⟨_ | _ | _ | _ | _ | _⟩ <;> simp
  | accept p =>
    simp only [mayFollowR, MayFollow, lastR_eq, Bool.and_eq_true, Nat.blt_eq]
    generalize lastMove rev.reverse = l
    rcases l with _ | ⟨_ | _ | _ | _ | _ | _⟩ <;> simp
  | draw p t =>
    simp only [mayFollowR, MayFollow, lastR_eq, Bool.and_eq_true, Nat.blt_eq, unseenR_iff, Option.isNone_iff_eq_none, and_assoc]
  | discard p t =>
    simp only [mayFollowR, MayFollow, lastR_eq, Bool.and_eq_true, Nat.blt_eq, holdsR_iff, and_assoc]
    generalize holderOf (lastMove rev.reverse) = l
    cases l <;> simp
  | call p c =>
    simp only [mayFollowR, MayFollow, Bool.and_eq_true, Nat.blt_eq]
    refine and_congr_right (fun _ => ?_)
    cases h : LogMeld.ofCode c with
    | none =>
      simp only [Bool.false_eq_true, false_iff]
      rintro ⟨m, hv, hc, _⟩
      exact ofCode_none h m hv hc
    | some m =>
      obtain ⟨hv, hc⟩ := (ofCode_iff c m).1 h
      have hone : ∀ m' : LogMeld, m'.Valid → c = m'.encode → m' = m := by
        intro m' hv' hc'
        have := (ofCode_iff c m').2 ⟨hv', hc'⟩
        rw [h] at this
        cases this
        rfl
      simp only [lastR_eq, Bool.and_eq_true, List.all_eq_true, holdsR_iff]
      have hl : timeR m.own p (lastMove rev.reverse) = true ↔
          if m.own then ∃ t, lastMove rev.reverse = some (.draw p t) else ∃ q t, lastMove rev.reverse = some (.discard q t) := by
        generalize lastMove rev.reverse = l
        cases m.own <;> rcases l with _ | ⟨_ | _ | _ | _ | _ | _⟩ <;> simp [timeR]
      rw [hl]
      constructor
      · rintro ⟨h1, h2⟩
        exact ⟨m, hv, hc, h1, h2⟩
      · rintro ⟨m', hv', hc', h1, h2⟩
        rw [hone m' hv' hc'] at h1 h2
        exact ⟨h1, h2⟩

theorem allR_iff {f : List Act → Act → Bool} {P : List Act → Act → Prop} (hf : ∀ rev x, f rev x = true ↔ P rev.reverse x)
    (acts : List Act) : allR f acts.reverse = true ↔ ∀ pre x post, acts = pre ++ x :: post → P pre x := by
  have key : ∀ rev : List Act, allR f rev = true ↔ ∀ pre x post, rev.reverse = pre ++ x :: post → P pre x := by
    intro rev
    induction rev with
    | nil => simp [allR]
    | cons a rev ih =>
      rw [allR, Bool.and_eq_true, hf, ih, List.reverse_cons]
      constructor
      · rintro ⟨h1, h2⟩ pre x post e
        rcases List.eq_nil_or_concat post with rfl | ⟨post', z, rfl⟩
        · obtain ⟨rfl, h3⟩ := List.append_inj' e rfl
          cases h3
          exact h1
        · rw [List.concat_eq_append, ← List.cons_append, ← List.append_assoc] at e
          obtain ⟨h3, _⟩ := List.append_inj' e rfl
          exact h2 pre x post' h3
      · intro h
        refine ⟨h _ _ [] rfl, fun pre x post e => h pre x (post ++ [a]) ?_⟩
        rw [e]
        simp
  rw [key, List.reverse_reverse]

theorem legal_iff (hai : Nat → List Nat) (first : Nat) (acts : List Act) :
    allR (mayFollowR hai first) acts.reverse = true ↔ LegalRound hai first acts :=
  allR_iff (fun rev x => mayFollowR_iff hai first rev x) acts

theorem claims_iff (acts : List Act) : allR claimsR acts.reverse = true ↔
    ∀ pre p (m : LogMeld) post t, acts = pre ++ .call p m.encode :: post → m.Valid → m.tiles.2 = some t →
      ∃ q, q ≠ p ∧ lastMove pre = some (.discard q t) := by
  rw [allR_iff (P := fun pre x => ∀ p (m : LogMeld) t, x = .call p m.encode → m.Valid → m.tiles.2 = some t →
      ∃ q, q ≠ p ∧ lastMove pre = some (.discard q t))]
  · constructor
    · intro h pre p m post t e hv ht
      exact h pre _ post e p m t rfl hv ht
    · rintro h pre x post e p m t rfl hv ht
      exact h pre p m post t e hv ht
  · intro rev x
    cases x with
    | call p c =>
      simp only [claimsR, lastR_eq]
      cases h : LogMeld.ofCode c with
      | none =>
        simp only [true_iff]
        rintro p' m t e hv _
        cases e
        exact absurd rfl (ofCode_none h m hv)
      | some m =>
        obtain ⟨hv, rfl⟩ := (ofCode_iff c m).1 h
        simp only
        constructor
        · rintro hh p' m' t e hv' ht
          simp only [Act.call.injEq] at e
          obtain ⟨rfl, e⟩ := e
          have : m' = m := by
            have := ofCode_encode hv'
            rw [← e, h] at this
            cases this
            rfl
          subst this
          rw [ht] at hh
          simp only at hh
          generalize lastMove rev.reverse = l at hh ⊢
          rcases l with _ | ⟨_ | _ | _ | _ | _ | ⟨q, u⟩⟩ <;> simp at hh
          exact ⟨q, hh.1, by rw [hh.2]⟩
        · intro hh
          cases ht : m.tiles.2 with
          | none => rfl
          | some t =>
            obtain ⟨q, hq, hl⟩ := hh p m t rfl hv ht
            simp [hl, hq]
    | _ => simp [claimsR]

theorem extendable_iff (p k : Nat) (rev : List Act) : extendable p k rev = true ↔
    ∃ pre1 pre2 src u w, (LogMeld.pon src k u w).Valid ∧ rev.reverse = pre1 ++ .call p (LogMeld.pon src k u w).encode :: pre2 ∧
      ∀ src'' u'' w'', (LogMeld.kakan src'' k u'' w'').Valid → Act.call p (LogMeld.kakan src'' k u'' w'').encode ∉ pre2 := by
  induction rev with
  | nil => simp [extendable]
  | cons a rev ih =>
    have skip : (∀ src u w, (LogMeld.pon src k u w).Valid → a ≠ .call p (LogMeld.pon src k u w).encode) →
        (∀ src u w, (LogMeld.kakan src k u w).Valid → a ≠ .call p (LogMeld.kakan src k u w).encode) →
        ((∃ pre1 pre2 src u w, (LogMeld.pon src k u w).Valid ∧
          (a :: rev).reverse = pre1 ++ .call p (LogMeld.pon src k u w).encode :: pre2 ∧
          ∀ src'' u'' w'', (LogMeld.kakan src'' k u'' w'').Valid → Act.call p (LogMeld.kakan src'' k u'' w'').encode ∉ pre2) ↔
        extendable p k rev = true) := by
      intro hp hk
      rw [ih, List.reverse_cons]
      constructor
      · rintro ⟨pre1, pre2, src, u, w, hv, e, hn⟩
        rcases List.eq_nil_or_concat pre2 with rfl | ⟨pre2', z, rfl⟩
        · obtain ⟨_, h3⟩ := List.append_inj' e rfl
          cases h3
          exact absurd rfl (hp src u w hv)
        · rw [List.concat_eq_append, ← List.cons_append, ← List.append_assoc] at e
          obtain ⟨h3, _⟩ := List.append_inj' e rfl
          exact ⟨pre1, pre2', src, u, w, hv, h3, fun s u' w' hv' hm => hn s u' w' hv' (by simp [hm])⟩
      · rintro ⟨pre1, pre2, src, u, w, hv, e, hn⟩
        refine ⟨pre1, pre2 ++ [a], src, u, w, hv, by rw [e]; simp, ?_⟩
        intro s u' w' hv' hm
        rcases List.mem_append.1 hm with hm | hm
        · exact hn s u' w' hv' hm
        · exact hk s u' w' hv' (List.mem_singleton.1 hm).symm
    by_cases hc : ∃ q c, a = .call q c
    · obtain ⟨q, c, rfl⟩ := hc
      unfold extendable
      by_cases hq : q = p
      · subst hq
        rw [if_pos (by simp)]
        have other : (∀ m, LogMeld.ofCode c = some m → (∀ s k' u w, m = .pon s k' u w → k' ≠ k) ∧
            (∀ s k' u w, m = .kakan s k' u w → k' ≠ k)) →
            ((∃ pre1 pre2 src u w, (LogMeld.pon src k u w).Valid ∧
          (Act.call q c :: rev).reverse = pre1 ++ .call q (LogMeld.pon src k u w).encode :: pre2 ∧
          ∀ src'' u'' w'', (LogMeld.kakan src'' k u'' w'').Valid → Act.call q (LogMeld.kakan src'' k u'' w'').encode ∉ pre2) ↔
            extendable q k rev = true) := by
          intro ho
          apply skip
          · intro src u w hv e
            simp only [Act.call.injEq, true_and] at e
            subst e
            exact (ho _ (ofCode_encode hv)).1 _ _ _ _ rfl rfl
          · intro src u w hv e
            simp only [Act.call.injEq, true_and] at e
            subst e
            exact (ho _ (ofCode_encode hv)).2 _ _ _ _ rfl rfl
        cases h : LogMeld.ofCode c with
        | none => rw [other (by rw [h]; simp)]
        | some m =>
          cases m with
          | pon s k' u w =>
            obtain ⟨hv, rfl⟩ := (ofCode_iff c _).1 h
            by_cases hk : k' = k
            · subst hk
              simp only [beq_self_eq_true, Bool.true_or, true_iff]
              exact ⟨rev.reverse, [], s, u, w, hv, by simp, by simp⟩
            · have hb : (k' == k) = false := by simpa using hk
              simp only [hb, Bool.false_or]
              rw [other (by rw [h]; rintro m ⟨⟩; constructor <;> rintro _ _ _ _ ⟨⟩; exact hk)]
          | kakan s k' u w =>
            obtain ⟨hv, rfl⟩ := (ofCode_iff c _).1 h
            by_cases hk : k' = k
            · subst hk
              simp only [beq_self_eq_true, Bool.not_true, Bool.false_and, Bool.false_eq_true, false_iff]
              rintro ⟨pre1, pre2, src, u', w', hv', e, hn⟩
              rw [List.reverse_cons] at e
              rcases List.eq_nil_or_concat pre2 with rfl | ⟨pre2', z, rfl⟩
              · obtain ⟨_, h3⟩ := List.append_inj' e rfl
                simp only [List.cons.injEq, Act.call.injEq, true_and, and_true] at h3
                rw [h3, ofCode_encode hv'] at h
                cases h
              · rw [List.concat_eq_append, ← List.cons_append, ← List.append_assoc] at e
                obtain ⟨_, h3⟩ := List.append_inj' e rfl
                simp only [List.cons.injEq, and_true] at h3
                exact hn s u w hv (by simp [h3])
            · have hb : (k' == k) = false := by simpa using hk
              simp only [hb, Bool.not_false, Bool.true_and]
              rw [other (by rw [h]; rintro m ⟨⟩; constructor <;> rintro _ _ _ _ ⟨⟩; exact hk)]
          | _ =>
            simp only
            rw [other (by rw [h]; rintro m ⟨⟩; constructor <;> rintro _ _ _ _ ⟨⟩)]
      · rw [if_neg (by simpa using hq)]
        rw [skip]
        · intro src u w _ e
          simp only [Act.call.injEq] at e
          exact hq e.1
        · intro src u w _ e
          simp only [Act.call.injEq] at e
          exact hq e.1
    · have e : extendable p k (a :: rev) = extendable p k rev := by
        cases a with
        | call q c => exact absurd ⟨q, c, rfl⟩ hc
        | _ => rfl
      rw [e, skip]
      · intro src u w _ e; exact hc ⟨_, _, e⟩
      · intro src u w _ e; exact hc ⟨_, _, e⟩

theorem extending_iff (acts : List Act) : allR extendingR acts.reverse = true ↔
    ∀ pre p src k u w post, acts = pre ++ .call p (LogMeld.kakan src k u w).encode :: post →
    (LogMeld.kakan src k u w).Valid → ∃ pre1 pre2 src' u' w', (LogMeld.pon src' k u' w').Valid ∧
      pre = pre1 ++ .call p (LogMeld.pon src' k u' w').encode :: pre2 ∧
      ∀ src'' u'' w'', (LogMeld.kakan src'' k u'' w'').Valid → Act.call p (LogMeld.kakan src'' k u'' w'').encode ∉ pre2 := by
  rw [allR_iff (P := fun pre x => ∀ p src k u w, x = .call p (LogMeld.kakan src k u w).encode →
    (LogMeld.kakan src k u w).Valid → ∃ pre1 pre2 src' u' w', (LogMeld.pon src' k u' w').Valid ∧
      pre = pre1 ++ .call p (LogMeld.pon src' k u' w').encode :: pre2 ∧
      ∀ src'' u'' w'', (LogMeld.kakan src'' k u'' w'').Valid → Act.call p (LogMeld.kakan src'' k u'' w'').encode ∉ pre2)]
  · constructor
    · intro h pre p src k u w post e hv
      exact h pre _ post e p src k u w rfl hv
    · rintro h pre x post e p src k u w rfl hv
      exact h pre p src k u w post e hv
  · intro rev x
    cases x with
    | call p c =>
      simp only [extendingR]
      have none' : (∀ s k u w, LogMeld.ofCode c ≠ some (.kakan s k u w)) → ∀ q src k u w,
          Act.call p c = .call q (LogMeld.kakan src k u w).encode → ¬ (LogMeld.kakan src k u w).Valid := by
        intro hn q src k u w e hv
        simp only [Act.call.injEq] at e
        rw [e.2] at hn
        exact hn _ _ _ _ (ofCode_encode hv)
      cases h : LogMeld.ofCode c with
      | none =>
        simp only [true_iff]
        intro q src k u w e hv
        exact absurd hv (none' (by rw [h]; simp) q src k u w e)
      | some m =>
        cases m with
        | kakan s k u w =>
          obtain ⟨hv, rfl⟩ := (ofCode_iff c _).1 h
          simp only
          rw [extendable_iff]
          constructor
          · rintro hh q src k' u' w' e hv'
            simp only [Act.call.injEq] at e
            obtain ⟨rfl, e⟩ := e
            rw [e, ofCode_encode hv'] at h
            cases h
            exact hh
          · intro hh
            exact hh p s k u w rfl hv
        | _ =>
          simp only [true_iff]
          intro q src k u w e hv
          exact absurd hv (none' (by rw [h]; simp) q src k u w e)
    | _ => simp [extendingR]

theorem once_iff (acts : List Act) : allR onceR acts.reverse = true ↔
    ∀ pre p post, acts = pre ++ .accept p :: post → Act.accept p ∉ post := by
  rw [allR_iff (P := fun pre x => ∀ p, x = .accept p → Act.accept p ∉ pre)]
  · constructor
    · rintro h pre p post rfl hm
      obtain ⟨l1, l2, rfl⟩ := List.append_of_mem hm
      exact h (pre ++ .accept p :: l1) (.accept p) l2 (by simp) p rfl (by simp)
    · rintro h pre x post rfl p rfl hm
      obtain ⟨l1, l2, rfl⟩ := List.append_of_mem hm
      exact h l1 p (l2 ++ .accept p :: post) (by simp) (by simp)
  · intro rev x
    cases x with
    | accept p =>
      simp only [onceR, Act.accept.injEq, Bool.not_eq_true', List.any_eq_false]
      constructor
      · rintro h q rfl hm
        have := h _ (List.mem_reverse.1 hm)
        simp at this
      · intro h a ha
        cases a with
        | accept q =>
          simp only [beq_iff_eq]
          rintro rfl
          exact h q rfl (List.mem_reverse.2 ha)
        | _ => simp
    | _ => simp [onceR]

theorem fairB_iff (hai : Nat → List Nat) (first : Nat) : fairB hai first = true ↔ FairDeal hai first := by
  unfold fairB
  simp only [Bool.and_eq_true, beq_iff_eq, decide_eq_true_eq, List.all_eq_true, Nat.blt_eq]
  constructor
  · rintro ⟨⟨⟨⟨⟨h0, h1⟩, h2⟩, h3⟩, h4⟩, h5⟩
    refine ⟨fun p hp => ?_, h4, h5⟩
    have : p = 0 ∨ p = 1 ∨ p = 2 ∨ p = 3 := by omega
    rcases this with rfl | rfl | rfl | rfl <;> assumption
  · rintro ⟨h1, h2, h3⟩
    exact ⟨⟨⟨⟨⟨h1 0 (by omega), h1 1 (by omega)⟩, h1 2 (by omega)⟩, h1 3 (by omega)⟩, h2⟩, h3⟩

theorem checkRules_iff (r : LogRound) : checkRules r = true ↔ PlayedByRules r := by
  unfold checkRules
  simp only [Bool.and_eq_true, claims_iff, extending_iff, once_iff, beq_iff_eq, Nat.blt_eq, Bool.not_eq_true',
    List.isEmpty_eq_false_iff]
  have hd : dealR r r.seed = true ↔ ∃ round honba sticks x y first, r.seed = [round, honba, sticks, x, y, first] ∧ FairDeal r.hai first ∧
    LegalRound r.hai first r.acts := by
    unfold dealR
    split
    · rename_i a b c d e f hs
      rw [Bool.and_eq_true, fairB_iff, legal_iff]
      constructor
      · rintro ⟨h1, h2⟩
        exact ⟨a, b, c, d, e, f, hs, h1, h2⟩
      · rintro ⟨a', b', c', d', e', f', hs', h1, h2⟩
        rw [hs] at hs'
        cases hs'
        exact ⟨h1, h2⟩
    · rename_i hs
      simp only [Bool.false_eq_true, false_iff]
      rintro ⟨a, b, c, d, e, f, hs', _⟩
      exact hs a b c d e f hs'
  rw [hd]
  constructor
  · rintro ⟨⟨⟨⟨⟨⟨h1, h2⟩, h3⟩, h4⟩, h5⟩, h6⟩, h7⟩
    exact ⟨h1, h2, h3, ⟨h4, h5⟩, h6, h7⟩
  · rintro ⟨h1, h2, h3, ⟨h4, h5⟩, h6, h7⟩
    exact ⟨⟨⟨⟨⟨⟨h1, h2⟩, h3⟩, h4⟩, h5⟩, h6⟩, h7⟩

end MJ
