import Verif.Spec.Rows
import Verif.Proofs.Except
/-!
The tensor builders produce the rows of Spec/Rows.lean.
-/
namespace MJ
open Code Spec

/-! ### pointwise related lists -/

theorem Spec.AllPairs.imp {α β : Type} {R Q : α → β → Prop} {as : List α} {bs : List β} (h : AllPairs R as bs)
    (hi : ∀ a b, a ∈ as → R a b → Q a b) : AllPairs Q as bs := by
  induction h with
  | nil => exact .nil
  | cons h1 _ ih => exact .cons (hi _ _ (by simp) h1) (ih (fun a b ha => hi a b (by simp [ha])))

theorem Spec.AllPairs.length {α β : Type} {R : α → β → Prop} {as : List α} {bs : List β} (h : AllPairs R as bs) :
    as.length = bs.length := by
  induction h with
  | nil => rfl
  | cons _ _ ih => simp [ih]

theorem Spec.AllPairs.mem_left {α β : Type} {R : α → β → Prop} {as : List α} {bs : List β} (h : AllPairs R as bs) {a : α}
    (ha : a ∈ as) : ∃ b ∈ bs, R a b := by
  induction h with
  | nil => simp at ha
  | cons h1 _ ih =>
    rcases List.mem_cons.1 ha with rfl | ha
    · exact ⟨_, by simp, h1⟩
    · obtain ⟨b, hb, hR⟩ := ih ha
      exact ⟨b, by simp [hb], hR⟩

theorem Spec.AllPairs.mem_right {α β : Type} {R : α → β → Prop} {as : List α} {bs : List β} (h : AllPairs R as bs) {b : β}
    (hb : b ∈ bs) : ∃ a ∈ as, R a b := by
  induction h with
  | nil => simp at hb
  | cons h1 _ ih =>
    rcases List.mem_cons.1 hb with rfl | hb
    · exact ⟨_, by simp, h1⟩
    · obtain ⟨a, ha, hR⟩ := ih hb
      exact ⟨a, by simp [ha], hR⟩

theorem Spec.AllPairs.append {α β : Type} {R : α → β → Prop} {as as' : List α} {bs bs' : List β} (h : AllPairs R as bs)
    (h' : AllPairs R as' bs') : AllPairs R (as ++ as') (bs ++ bs') := by
  induction h with
  | nil => exact h'
  | cons h1 _ ih => exact .cons h1 ih

/-! ### folding turns into rows -/

/-- appending one row -/
theorem ofRows_snoc (rows : List Row) (t : List Nat) (x1 : List (List (List Int))) (x2 : List (List Int)) (x3 m : List Int)
    (y : Int) (p : Nat) :
    ({ encodings := (ofRows rows).encodings ++ [t], x1 := (ofRows rows).x1 ++ [x1], x2 := (ofRows rows).x2 ++ [x2]
       x3 := (ofRows rows).x3 ++ [x3], mask := (ofRows rows).mask ++ [m], y := (ofRows rows).y ++ [y]
       player := (ofRows rows).player ++ [p] } : Batch) = ofRows (rows ++ [⟨t, x1, x2, x3, m, y, p⟩]) := by
  simp [ofRows]

/-! ### tokens -/

theorem maskTokens_upTo (tokens : List Nat) (e : Nat) (he : e < 150) :
    TokensUpTo tokens e (maskTokens (padTokens tokens) e) := by
  have hp : (padTokens tokens).length = 150 := by
    unfold padTokens
    split <;> simp <;> omega
  have hg : ∀ i < 150, (padTokens tokens)[i]? = some (tokens.getD i 0) := by
    intro i hi
    unfold padTokens
    split
    · rename_i h
      rw [List.getElem?_append]
      split
      · rename_i h2
        simp [List.getD, h2]
      · rename_i h2
        rw [List.getElem?_replicate, if_pos (by omega)]
        simp [List.getD, List.getElem?_eq_none (by omega : tokens.length ≤ i)]
    · rename_i h
      rw [List.getElem?_take, if_pos hi]
      simp [List.getD, (by omega : i < tokens.length)]
  refine ⟨by simp [maskTokens, hp]; omega, ?_⟩
  intro i hi
  unfold maskTokens
  rw [List.getElem?_append]
  have hl : ((padTokens tokens).take e).length = e := by simp [hp]; omega
  rw [hl]
  split
  · rename_i h
    rw [List.getElem?_take, if_pos h, hg i hi]
  · rename_i h
    rw [List.getElem?_replicate, if_pos (by omega)]

/-! ### masks -/

/-- `m` has 1 exactly at the positions in `S` -/
def IsMask (n : Nat) (S : Nat → Prop) (m : List Int) : Prop := Allows n m S

theorem isMask_zeros (n : Nat) : IsMask n (fun _ => False) (zeros n) := by
  refine ⟨by simp [zeros], by simp, ?_⟩
  intro k hk _
  simp [zeros, hk]

theorem IsMask.congr {n : Nat} {S T : Nat → Prop} {m : List Int} (h : IsMask n S m) (hst : ∀ k, S k ↔ T k) : IsMask n T m :=
  ⟨h.1, fun k hk => h.2.1 k ((hst k).2 hk), fun k hk hn => h.2.2 k hk (fun hs => hn ((hst k).1 hs))⟩

theorem IsMask.set {n : Nat} {S : Nat → Prop} {m : List Int} (h : IsMask n S m) {i : Nat} (hi : i < n) :
    IsMask n (fun k => S k ∨ k = i) (m.set i 1) := by
  refine ⟨by simp [h.1], ?_, ?_⟩
  · intro k hk
    by_cases e : i = k
    · subst e
      exact ⟨hi, by simp [h.1, hi]⟩
    · rw [List.getElem?_set_ne e]
      exact h.2.1 k (hk.resolve_right (fun h => e h.symm))
  · intro k hk hn
    rw [List.getElem?_set_ne (fun e => hn (.inr e.symm))]
    exact h.2.2 k hk (fun hs => hn (.inl hs))

theorem markIdx_ok {v : Variant} {m m' : List Int} {i : Int} (h : markIdx v m i = .ok m') (hi : 0 ≤ i) :
    i.toNat < m.length ∧ m' = m.set i.toNat 1 := by
  unfold markIdx at h
  simp only at h
  split at h
  · simp at h
  · split at h
    · rename_i h2
      simp only [Except.ok.injEq] at h
      exact ⟨by omega, h.symm⟩
    · split at h
      · omega
      · simp at h

theorem duringNaki_ok {v : Variant} (ns : List NakiDecision) : ∀ {m m' : List Int} {idx idx' : Int} {S : Nat → Prop} {n : Nat},
    duringNaki v (ns.map .naki) m idx = .ok (m', idx') → IsMask n S m →
    IsMask n (fun k => S k ∨ ∃ d ∈ ns, ownAction d k) m' ∧ LastExecuted ownAction ns idx idx' := by
  induction ns with
  | nil =>
    intro m m' idx idx' S n h hm
    simp only [List.map_nil, duringNaki, Except.ok.injEq, Prod.mk.injEq] at h
    obtain ⟨rfl, rfl⟩ := h
    exact ⟨hm.congr (by simp), .inr ⟨by simp, rfl⟩⟩
  | cons d ns ih =>
    intro m m' idx idx' S n h hm
    simp only [List.map_cons, duringNaki, bind_ok] at h
    obtain ⟨i, h1, m1, h2, h3⟩ := h
    obtain ⟨hlt, rfl⟩ := markIdx_ok h2 (by omega)
    simp only [Int.toNat_natCast] at hlt h3
    rw [hm.1] at hlt
    obtain ⟨ih1, ih2⟩ := ih h3 (hm.set hlt)
    refine ⟨ih1.congr ?_, ?_⟩
    · intro k
      constructor
      · rintro ((hs | rfl) | ⟨x, hx, ha⟩)
        · exact .inl hs
        · exact .inr ⟨d, by simp, _, h1, rfl⟩
        · exact .inr ⟨x, by simp [hx], ha⟩
      · rintro (hs | ⟨x, hx, ha⟩)
        · exact .inl (.inl hs)
        · rcases List.mem_cons.1 hx with rfl | hx
          · obtain ⟨j, hj, hkj⟩ := ha
            rw [h1] at hj
            simp only [Except.ok.injEq] at hj
            exact .inl (.inr (by omega))
          · exact .inr ⟨x, hx, ha⟩
    · rcases ih2 with ⟨l1, x, l2, rfl, hx, hl, ha⟩ | ⟨hl, he⟩
      · exact .inl ⟨d :: l1, x, l2, rfl, hx, hl, ha⟩
      · by_cases hd : d.executed = true
        · rw [if_pos hd] at he
          exact .inl ⟨[], d, ns, rfl, hd, hl, i, h1, he⟩
        · rw [if_neg hd] at he
          refine .inr ⟨?_, he⟩
          intro x hx
          rcases List.mem_cons.1 hx with rfl | hx
          · simpa using hd
          · exact hl x hx

theorem duringLoop_ok {v : Variant} {a : List AgariDecision} {r : List ReachDecision} {n : List NakiDecision}
    {m : List Int} {idx : Int} (h : duringLoop v 0 (duringDecisions a r n) ((zeros 71).set 0 1) 0 = .ok (m, idx)) :
    Allows 71 m (OwnAllowed a r n) ∧ LastExecuted ownAction n 2 idx := by
  have hm0 : IsMask 71 (fun k => False ∨ k = 0) ((zeros 71).set 0 1) := (isMask_zeros 71).set (by omega)
  simp only [duringDecisions, duringLoop, bind_ok, Except.ok.injEq] at h
  obtain ⟨⟨m1, i1⟩, h1, ⟨m2, i2⟩, h2, ⟨m3, i3⟩, h3, h4⟩ := h
  simp only [Prod.mk.injEq] at h4
  obtain ⟨rfl, rfl⟩ := h4
  have hm1 : IsMask 71 (fun k => k = 0 ∨ (k = 1 ∧ a ≠ [])) m1 := by
    simp only [duringPass] at h1
    split at h1
    · rename_i ha
      simp only [Except.ok.injEq, Prod.mk.injEq] at h1
      rw [← h1.1]
      refine hm0.congr ?_
      intro k
      simp at ha
      simp [ha]
    · rename_i ha
      simp only [if_true, Except.ok.injEq, Prod.mk.injEq] at h1
      rw [← h1.1]
      refine ((hm0.set (i := 0) (by omega)).set (i := 1) (by omega)).congr ?_
      intro k
      simp at ha
      simp [ha]
  have hm2 : IsMask 71 (fun k => k = 0 ∨ (k = 1 ∧ a ≠ []) ∨ (k = 2 ∧ r ≠ [])) m2 := by
    simp only [duringPass] at h2
    split at h2
    · rename_i hr
      simp only [Except.ok.injEq, Prod.mk.injEq] at h2
      rw [← h2.1]
      refine hm1.congr ?_
      intro k
      simp at hr
      simp [hr]
    · rename_i hr
      simp only [if_neg (by omega : ¬ (0 + 1 : Nat) = 0), if_true, Except.ok.injEq, Prod.mk.injEq] at h2
      rw [← h2.1]
      refine ((hm1.set (i := 0) (by omega)).set (i := 2) (by omega)).congr ?_
      intro k
      simp at hr
      simp only [ne_eq, hr, not_false_eq_true, and_true]
      grind
  have hm3 : IsMask 71 (fun k => (k = 0 ∨ (k = 1 ∧ a ≠ []) ∨ (k = 2 ∧ r ≠ [])) ∨ ∃ d ∈ n, ownAction d k) m3 ∧
      LastExecuted ownAction n 2 i3 := by
    simp only [duringPass] at h3
    split at h3
    · rename_i hn
      simp at hn
      subst hn
      simp only [Except.ok.injEq, Prod.mk.injEq] at h3
      rw [← h3.1]
      exact ⟨hm2.congr (by simp), .inr ⟨by simp, by rw [← h3.2]; rfl⟩⟩
    · simp only [if_neg (by omega : ¬ (0 + 1 + 1 : Nat) = 0), if_neg (by omega : ¬ (0 + 1 + 1 : Nat) = 1), if_true] at h3
      have := duringNaki_ok n h3 (hm2.set (i := 0) (by omega))
      exact ⟨this.1.congr (by intro k; simp only [or_assoc, or_comm]; grind), this.2⟩
  exact ⟨hm3.1.congr (by intro k; simp only [OwnAllowed]; grind), hm3.2⟩

theorem post_idx_nonneg {c : Nat} {i : Int} (h : get_post_turn_filter_idx c = .ok i) : 0 ≤ i := by
  unfold get_post_turn_filter_idx at h
  simp only at h
  split at h
  · split at h <;> simp only [Except.ok.injEq] at h <;> omega
  · split at h
    · split at h
      · simp only [Except.ok.injEq] at h; omega
      · split at h
        · split at h <;> simp only [Except.ok.injEq] at h <;> omega
        · simp at h
    · split at h
      · simp only [Except.ok.injEq] at h; omega
      · simp at h

theorem postNaki_ok {v : Variant} (ns : List NakiDecision) : ∀ {acc acc' : PostAcc} {S : Nat → Prop} {n : Nat},
    postNaki v (ns.map .naki) acc = .ok acc' → IsMask n S acc.mask →
    IsMask n (fun k => S k ∨ ∃ d ∈ ns, callAction d k) acc'.mask ∧ LastExecuted callAction ns acc.result acc'.result ∧
    acc'.contains_executed = (acc.contains_executed || ns.any (·.executed)) := by
  induction ns with
  | nil =>
    intro acc acc' S n h hm
    simp only [List.map_nil, postNaki, Except.ok.injEq] at h
    subst h
    exact ⟨hm.congr (by simp), .inr ⟨by simp, rfl⟩, by simp⟩
  | cons d ns ih =>
    intro acc acc' S n h hm
    simp only [List.map_cons, postNaki, bind_ok] at h
    obtain ⟨i, h1, m1, h2, h3⟩ := h
    have hi := post_idx_nonneg h1
    obtain ⟨hlt, rfl⟩ := markIdx_ok h2 hi
    rw [hm.1] at hlt
    have hmask : (if d.executed = true then (⟨acc.mask.set i.toNat 1, i, true⟩ : PostAcc)
        else { acc with mask := acc.mask.set i.toNat 1 }).mask = acc.mask.set i.toNat 1 := by split <;> rfl
    obtain ⟨ih1, ih2, ih3⟩ := ih h3 (by rw [hmask]; exact hm.set hlt)
    refine ⟨ih1.congr ?_, ?_, ?_⟩
    · intro k
      constructor
      · rintro ((hs | rfl) | ⟨x, hx, ha⟩)
        · exact .inl hs
        · exact .inr ⟨d, by simp, by unfold callAction; rw [h1]; congr 1; omega⟩
        · exact .inr ⟨x, by simp [hx], ha⟩
      · rintro (hs | ⟨x, hx, ha⟩)
        · exact .inl (.inl hs)
        · rcases List.mem_cons.1 hx with rfl | hx
          · unfold callAction at ha
            rw [h1] at ha
            simp only [Except.ok.injEq] at ha
            exact .inl (.inr (by omega))
          · exact .inr ⟨x, hx, ha⟩
    · rcases ih2 with ⟨l1, x, l2, rfl, hx, hl, ha⟩ | ⟨hl, he⟩
      · exact .inl ⟨d :: l1, x, l2, rfl, hx, hl, ha⟩
      · by_cases hd : d.executed = true
        · rw [if_pos hd] at he
          exact .inl ⟨[], d, ns, rfl, hd, hl, by rw [he]; exact h1⟩
        · rw [if_neg hd] at he
          refine .inr ⟨?_, he⟩
          intro x hx
          rcases List.mem_cons.1 hx with rfl | hx
          · simpa using hd
          · exact hl x hx
    · rw [ih3]
      by_cases hd : d.executed = true
      · rw [if_pos hd]; simp [hd]
      · rw [if_neg hd]
        simp only [Bool.not_eq_true] at hd
        simp [hd]

theorem postLoop_ok {v : Variant} {a : List AgariDecision} {n : List NakiDecision} {acc : PostAcc}
    (hne : a ≠ [] ∨ n ≠ [])
    (h : postLoop v 0 [a.map .agari, [], n.map .naki] ⟨zeros 154, 0, false⟩ = .ok acc) :
    Allows 154 acc.mask (CallAllowed a n) ∧ LastExecuted callAction n (if winTaken a then 1 else 0) acc.result ∧
    acc.contains_executed = (winTaken a || n.any (·.executed)) := by
  simp only [postLoop, bind_ok, Except.ok.injEq] at h
  obtain ⟨acc1, h1, acc2, h2, acc3, h3, rfl⟩ := h
  have hacc1 : IsMask 154 (fun k => a ≠ [] ∧ (k = 0 ∨ k = 1)) acc1.mask ∧ acc1.result = (if winTaken a then 1 else 0) ∧
      acc1.contains_executed = winTaken a := by
    cases a with
    | nil =>
      simp only [postPass, List.map_nil, if_true, Except.ok.injEq] at h1
      subst h1
      exact ⟨(isMask_zeros 154).congr (by simp), by simp [winTaken], by simp [winTaken]⟩
    | cons d a =>
      simp only [postPass, List.map_cons, reduceCtorEq, if_false, if_true, Except.ok.injEq, headExecuted,
        Decision.executed] at h1
      have hm := ((isMask_zeros 154).set (i := 0) (by omega)).set (i := 1) (by omega)
      by_cases hd : d.executed = true
      · rw [if_pos hd] at h1
        subst h1
        exact ⟨hm.congr (by simp), by simp [winTaken, hd], by simp [winTaken, hd]⟩
      · rw [if_neg hd] at h1
        subst h1
        exact ⟨hm.congr (by simp), by simp [winTaken, hd], by simp [winTaken, hd]⟩
  simp only [postPass, if_true, Except.ok.injEq] at h2
  subst h2
  obtain ⟨hm, hr, hc⟩ := hacc1
  cases n with
  | nil =>
    simp only [postPass, List.map_nil, if_true, Except.ok.injEq] at h3
    subst h3
    have ha : a ≠ [] := by simpa using hne
    refine ⟨hm.congr ?_, .inr ⟨by simp, hr⟩, by simp [hc]⟩
    intro k
    simp [CallAllowed, ha]
  | cons d n =>
    have hne' : (d :: n).map Decision.naki ≠ [] := by simp
    simp only [postPass, if_neg hne', if_neg (by omega : ¬ (0 + 1 + 1 : Nat) = 0),
      if_neg (by omega : ¬ (0 + 1 + 1 : Nat) = 1), if_true] at h3
    obtain ⟨k1, k2, k3⟩ := postNaki_ok (d :: n) h3 (hm.set (i := 0) (by omega))
    refine ⟨k1.congr ?_, ?_, ?_⟩
    · intro k
      simp only [CallAllowed]
      grind
    · simpa [hr] using k2
    · simpa [hc] using k3

/-! ### rows of a half-turn -/

/-- everything in a row except mask and label -/
def RowBase (v : Variant) (s : RoundSt) (tokens : List Nat) (o : StateObj) (e p : Nat) (row : Row) : Prop :=
  e < 150 ∧ TokensUpTo tokens e row.tokens ∧ row.x1 = stateX1 v o s ∧ stateX2 o s = .ok row.x2 ∧
  row.x3 = stateX3 o ∧ row.player = p

def PostRow (v : Variant) (s : RoundSt) (tokens : List Nat) (o : StateObj) (e : Nat) (a : List (List AgariDecision))
    (n : List (List NakiDecision)) (p : Nat) (row : Row) : Prop :=
  RowBase v s tokens o e p row ∧ Allows 154 row.mask (CallAllowed (winsOf a p) (callsOf n p)) ∧
  LastExecuted callAction (callsOf n p) (if winTaken (winsOf a p) then 1 else 0) row.y

/-- the rows of a half-turn -/
def RowsOf (v : Variant) (s : RoundSt) (tokens : List Nat) : HalfTurn → List Row → Prop
  | .during p o e a r n, rows =>
    if a = [] ∧ r = [] ∧ n = [] then rows = []
    else ∃ row, rows = [row] ∧ RowBase v s tokens o e p row ∧ Allows 71 row.mask (OwnAllowed a r n) ∧
      LastExecuted ownAction n 2 row.y
  | .discard p o e t, rows => ∃ row, rows = [row] ∧ RowBase v s tokens o e p row ∧
      row.mask = (List.range 37).map (fun k => min (s.hand_tensors o.player k) 1) ∧ t < 136 ∧ row.y = (t / 4 : Nat)
  | .post q o e a n, rows => a.length = 4 → n.length = 4 → q < 4 →
      AllPairs (PostRow v s tokens o e a n) (deciders q a n) rows

theorem tile2idx_headD (t : Nat) : (tile2idx t).headD 0 = t / 4 := by
  unfold tile2idx
  split
  · subst_vars; rfl
  · split
    · subst_vars; rfl
    · split
      · subst_vars; rfl
      · rfl

theorem duringTurn_rows {v : Variant} {s : RoundSt} {tokens : List Nat} {rows : List Row} {b' : Batch} {p : Nat}
    {o : StateObj} {e : Nat} {a : List AgariDecision} {r : List ReachDecision} {n : List NakiDecision}
    (h : duringTurn v s (padTokens tokens) (ofRows rows) p o e (duringDecisions a r n) = .ok b') :
    ∃ new, RowsOf v s tokens (.during p o e a r n) new ∧ b' = ofRows (rows ++ new) := by
  have hsum : ((duringDecisions a r n).map List.length).sum = 0 ↔ a = [] ∧ r = [] ∧ n = [] := by
    simp only [duringDecisions, List.map_cons, List.map_nil, List.length_map, List.sum_cons, List.sum_nil]
    rw [← List.length_eq_zero_iff, ← List.length_eq_zero_iff, ← List.length_eq_zero_iff]
    omega
  unfold duringTurn at h
  by_cases hz : a = [] ∧ r = [] ∧ n = []
  · rw [if_pos (hsum.2 hz), pure_ok] at h
    exact ⟨[], by simp only [RowsOf, if_pos hz], by simp [← h]⟩
  · rw [if_neg (fun h => hz (hsum.1 h))] at h
    simp only [bind_ok, pyAssert_ok, pure_ok, decide_eq_true_eq] at h
    obtain ⟨_, he, x2, hx2, ⟨m, idx⟩, hl, hb⟩ := h
    obtain ⟨h1, h2⟩ := duringLoop_ok hl
    refine ⟨[⟨maskTokens (padTokens tokens) e, stateX1 v o s, x2, stateX3 o, m, idx, p⟩], ?_, ?_⟩
    · simp only [RowsOf]
      rw [if_neg hz]
      exact ⟨_, rfl, ⟨he, maskTokens_upTo tokens e he, rfl, hx2, rfl, rfl⟩, h1, h2⟩
    · rw [← hb, ofRows_snoc]

theorem discardTurn_rows {v : Variant} {s : RoundSt} {tokens : List Nat} {rows : List Row} {b' : Batch} {p : Nat}
    {o : StateObj} {e t : Nat} (h : discardTurn v s (padTokens tokens) (ofRows rows) p o e t = .ok b') :
    ∃ new, RowsOf v s tokens (.discard p o e t) new ∧ b' = ofRows (rows ++ new) := by
  simp only [discardTurn, bind_ok, pyAssert_ok, pure_ok, decide_eq_true_eq, checkTile_ok, tile2idx_headD] at h
  obtain ⟨_, he, x2, hx2, _, ht, _, _, hb⟩ := h
  refine ⟨[⟨maskTokens (padTokens tokens) e, stateX1 v o s, x2, stateX3 o,
    (List.range 37).map (fun k => min (o.hand_tensor s k) 1), (t / 4 : Nat), p⟩], ?_, ?_⟩
  · exact ⟨_, rfl, ⟨he, maskTokens_upTo tokens e he, rfl, hx2, rfl, rfl⟩, rfl, ht, rfl⟩
  · rw [← hb, ofRows_snoc]

theorem getElem?_postDecisions {a : List (List AgariDecision)} {n : List (List NakiDecision)} (ha : a.length = 4)
    (hn : n.length = 4) {p : Nat} (hp : p < 4) :
    (postDecisions a n)[p]? = some [(winsOf a p).map .agari, [], (callsOf n p).map .naki] := by
  unfold postDecisions winsOf callsOf
  rw [List.getElem?_zipWith]
  simp [List.getD, List.getElem?_eq_getElem (by omega : p < a.length), List.getElem?_eq_getElem (by omega : p < n.length)]

theorem postSeats_rows {v : Variant} {s : RoundSt} {tokens : List Nat} {o : StateObj} {e : Nat} {x2 : List (List Int)}
    {a : List (List AgariDecision)} {n : List (List NakiDecision)} (ha : a.length = 4) (hn : n.length = 4)
    (he : e < 150) (hx2 : stateX2 o s = .ok x2) (seats : List Nat) (hs : ∀ p ∈ seats, p < 4) :
    ∀ (rows : List Row) (b' : Batch),
    postSeats v s (padTokens tokens) o e x2 (postDecisions a n) seats (ofRows rows) = .ok b' →
    ∃ new, AllPairs (PostRow v s tokens o e a n)
      (upTo (fun p => winTaken (winsOf a p) || (callsOf n p).any (·.executed))
        (seats.filter (fun p => !(winsOf a p).isEmpty || !(callsOf n p).isEmpty))) new ∧ b' = ofRows (rows ++ new) := by
  induction seats with
  | nil =>
    intro rows b' h
    simp only [postSeats, Except.ok.injEq] at h
    exact ⟨[], .nil, by simp [← h]⟩
  | cons p ps ih =>
    intro rows b' h
    have hp : p < 4 := hs p (by simp)
    have ih := ih (fun q hq => hs q (by simp [hq]))
    simp only [postSeats, getElem?_postDecisions ha hn hp] at h
    have hsum : (([(winsOf a p).map Decision.agari, [], (callsOf n p).map .naki].map List.length).sum = 0) ↔
        (winsOf a p = [] ∧ callsOf n p = []) := by
      simp only [List.map_cons, List.map_nil, List.length_map, List.sum_cons, List.sum_nil, List.length_nil]
      rw [← List.length_eq_zero_iff, ← List.length_eq_zero_iff]
      omega
    by_cases hz : winsOf a p = [] ∧ callsOf n p = []
    · rw [if_pos (hsum.2 hz)] at h
      rw [List.filter_cons_of_neg (by simp [hz.1, hz.2])]
      exact ih _ _ h
    · rw [if_neg (fun h => hz (hsum.1 h))] at h
      rw [List.filter_cons_of_pos (by
        simp only [Bool.or_eq_true, Bool.not_eq_true', List.isEmpty_eq_false_iff]
        by_cases h1 : winsOf a p = []
        · exact .inr (fun h2 => hz ⟨h1, h2⟩)
        · exact .inl h1)]
      simp only [bind_ok] at h
      obtain ⟨acc, hl, h⟩ := h
      obtain ⟨h1, h2, h3⟩ := postLoop_ok (by
        by_cases h1 : winsOf a p = []
        · exact .inr (fun h2 => hz ⟨h1, h2⟩)
        · exact .inl h1) hl
      rw [ofRows_snoc] at h
      unfold upTo
      by_cases hc : acc.contains_executed = true
      · rw [if_pos hc, pure_ok] at h
        rw [if_pos (by rw [← h3]; exact hc)]
        exact ⟨_, .cons ⟨⟨he, maskTokens_upTo tokens e he, rfl, hx2, rfl, rfl⟩, h1, h2⟩ .nil, h.symm⟩
      · rw [if_neg hc] at h
        rw [if_neg (by rw [← h3]; exact hc)]
        obtain ⟨new, hnew, rfl⟩ := ih _ _ h
        refine ⟨⟨maskTokens (padTokens tokens) e, stateX1 v o s, x2, stateX3 o, acc.mask, acc.result, p⟩ :: new, ?_, ?_⟩
        · exact .cons ⟨⟨he, maskTokens_upTo tokens e he, rfl, hx2, rfl, rfl⟩, h1, h2⟩ hnew
        · rw [List.append_assoc]; rfl

theorem seatsAfter_eq {q : Nat} (hq : q < 4) : seatsAfter q = turnOrder q := by
  match q, hq with
  | 0, _ => rfl
  | 1, _ => rfl
  | 2, _ => rfl
  | 3, _ => rfl

theorem turnOrder_lt (q : Nat) : ∀ p ∈ turnOrder q, p < 4 := by
  intro p hp
  simp only [turnOrder, List.mem_cons, List.not_mem_nil, or_false] at hp
  omega

theorem postTurn_rows {v : Variant} {s : RoundSt} {tokens : List Nat} {rows : List Row} {b' : Batch} {q : Nat}
    {o : StateObj} {e : Nat} {a : List (List AgariDecision)} {n : List (List NakiDecision)} (hq : q < 4)
    (ha : a.length = 4) (hn : n.length = 4)
    (h : postTurn v s (padTokens tokens) (ofRows rows) q o e (postDecisions a n) = .ok b') :
    ∃ new, RowsOf v s tokens (.post q o e a n) new ∧ b' = ofRows (rows ++ new) := by
  unfold postTurn at h
  by_cases hz : ((postDecisions a n).map (fun ds => (ds.map List.length).sum)).sum = 0
  · rw [if_pos hz, pure_ok] at h
    refine ⟨[], ?_, by simp [← h]⟩
    intro _ _ _
    have hnone : ∀ p < 4, winsOf a p = [] ∧ callsOf n p = [] := by
      intro p hp
      have hmem := List.mem_of_getElem? (getElem?_postDecisions ha hn hp)
      have := List.sum_eq_zero_iff_forall_eq_nat.1 hz _ (List.mem_map.2 ⟨_, hmem, rfl⟩)
      simp only [List.map_cons, List.map_nil, List.length_map, List.sum_cons, List.sum_nil, List.length_nil] at this
      rw [← List.length_eq_zero_iff, ← List.length_eq_zero_iff]
      omega
    have hf : (turnOrder q).filter (fun p => !(winsOf a p).isEmpty || !(callsOf n p).isEmpty) = [] := by
      rw [List.filter_eq_nil_iff]
      intro p hp
      obtain ⟨h1, h2⟩ := hnone p (turnOrder_lt q p hp)
      simp [h1, h2]
    unfold deciders
    rw [hf]
    exact .nil
  · rw [if_neg hz] at h
    simp only [bind_ok, pyAssert_ok, decide_eq_true_eq] at h
    obtain ⟨_, he, x2, hx2, h⟩ := h
    rw [seatsAfter_eq hq] at h
    obtain ⟨new, h1, h2⟩ := postSeats_rows ha hn he hx2 _ (turnOrder_lt q) _ _ h
    exact ⟨new, fun _ _ _ => h1, h2⟩

/-- the decision lists of a post-turn are four and four -/
def FourLists : HalfTurn → Prop
  | .post q _ _ a n => q < 4 ∧ a.length = 4 ∧ n.length = 4
  | _ => True

theorem fold_rows_mem {α : Type} {f : Batch → α → Except PyErr Batch} {R : α → List Row → Prop} (l : List α)
    (hstep : ∀ a ∈ l, ∀ rows b', f (ofRows rows) a = .ok b' → ∃ new, R a new ∧ b' = ofRows (rows ++ new)) :
    ∀ (rows0 : List Row) (b : Batch), l.foldlM f (ofRows rows0) = .ok b →
      ∃ groups, AllPairs R l groups ∧ b = ofRows (rows0 ++ groups.flatten) := by
  induction l with
  | nil =>
    intro rows0 b h
    simp only [List.foldlM_nil, pure_ok] at h
    exact ⟨[], .nil, by simp [h]⟩
  | cons a l ih =>
    intro rows0 b h
    simp only [List.foldlM_cons, bind_ok] at h
    obtain ⟨b1, h1, h2⟩ := h
    obtain ⟨new, hR, rfl⟩ := hstep a (by simp) _ _ h1
    obtain ⟨groups, hg, rfl⟩ := ih (fun a ha => hstep a (by simp [ha])) _ _ h2
    exact ⟨new :: groups, .cons hR hg, by simp⟩

theorem buildDuring_rows {v : Variant} {s : RoundSt} {tokens : List Nat} {turns : List HalfTurn} {b : Batch}
    (h : buildDuring v s turns (padTokens tokens) = .ok b) :
    ∃ groups, AllPairs (RowsOf v s tokens) turns groups ∧ b = ofRows groups.flatten ∧ twoAllowed b.mask = true := by
  simp only [buildDuring, bind_ok, pyAssert_ok, pure_ok] at h
  obtain ⟨b1, h1, _, h2, rfl⟩ := h
  obtain ⟨g, hg, hb⟩ := fold_rows_mem (R := RowsOf v s tokens) turns (by
    intro t _ rows b' h
    cases t with
    | during => exact duringTurn_rows h
    | discard => simp at h
    | post => simp at h) [] b1 h1
  exact ⟨g, hg, by simpa using hb, h2⟩

theorem buildDiscard_rows {v : Variant} {s : RoundSt} {tokens : List Nat} {turns : List HalfTurn} {b : Batch}
    (h : buildDiscard v s turns (padTokens tokens) = .ok b) :
    ∃ groups, AllPairs (RowsOf v s tokens) turns groups ∧ b = ofRows groups.flatten ∧ oneAllowed b.mask = true := by
  simp only [buildDiscard, bind_ok, pyAssert_ok, pure_ok] at h
  obtain ⟨b1, h1, _, h2, rfl⟩ := h
  obtain ⟨g, hg, hb⟩ := fold_rows_mem (R := RowsOf v s tokens) turns (by
    intro t _ rows b' h
    cases t with
    | during => simp at h
    | discard => exact discardTurn_rows h
    | post => simp at h) [] b1 h1
  exact ⟨g, hg, by simpa using hb, h2⟩

theorem buildPost_rows {v : Variant} {s : RoundSt} {tokens : List Nat} {turns : List HalfTurn} {b : Batch}
    (hf : ∀ t ∈ turns, FourLists t) (h : buildPost v s turns (padTokens tokens) = .ok b) :
    ∃ groups, AllPairs (RowsOf v s tokens) turns groups ∧ b = ofRows groups.flatten ∧ twoAllowed b.mask = true := by
  simp only [buildPost, bind_ok, pyAssert_ok, pure_ok] at h
  obtain ⟨b1, h1, _, h2, rfl⟩ := h
  obtain ⟨g, hg, hb⟩ := fold_rows_mem (R := RowsOf v s tokens) turns (by
    intro t ht rows b' h
    cases t with
    | during => simp at h
    | discard => simp at h
    | post =>
      obtain ⟨h1, h2, h3⟩ := hf _ ht
      exact postTurn_rows h1 h2 h3 h) [] b1 h1
  exact ⟨g, hg, by simpa using hb, h2⟩

/-- the three heads' samples of one round -/
structure BuiltRows (v : Variant) (s : RoundSt) (turns : List HalfTurn) (tokens : List Nat) (d c p : Batch) where
  dg : List (List Row)
  cg : List (List Row)
  pg : List (List Row)
  during : AllPairs (RowsOf v s tokens) (turns.filter HalfTurn.isDuring) dg
  discard : AllPairs (RowsOf v s tokens) (turns.filter HalfTurn.isDiscard) cg
  post : AllPairs (RowsOf v s tokens) (turns.filter HalfTurn.isPost) pg
  d_eq : d = ofRows dg.flatten
  c_eq : c = ofRows cg.flatten
  p_eq : p = ofRows pg.flatten
  d_two : twoAllowed d.mask = true
  c_one : oneAllowed c.mask = true
  p_two : twoAllowed p.mask = true

theorem buildTensors_rows {v : Variant} {s : RoundSt} {turns : List HalfTurn} {tokens : List Nat} {d c p : Batch}
    (hf : ∀ t ∈ turns, FourLists t) (h : buildTensors v s turns tokens = .ok (d, c, p)) :
    Nonempty (BuiltRows v s turns tokens d c p) := by
  simp only [buildTensors, bind_ok, pure_ok, Prod.mk.injEq] at h
  obtain ⟨d', h1, c', h2, p', h3, rfl, rfl, rfl⟩ := h
  obtain ⟨dg, h4, h5, h6⟩ := buildDuring_rows h1
  obtain ⟨cg, h7, h8, h9⟩ := buildDiscard_rows h2
  obtain ⟨pg, h10, h11, h12⟩ := buildPost_rows (fun t ht => hf t (List.mem_filter.1 ht).1) h3
  exact ⟨⟨dg, cg, pg, h4, h7, h10, h5, h8, h11, h6, h9, h12⟩⟩

end MJ
