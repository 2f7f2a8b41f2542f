import Verif.Proofs.Questions
/-!
C122: the hand evaluator and the shanten calculator are only asked about hands that exist.
-/
namespace MJ
open Code Spec

theorem arg_lists {cs : List Naki} (hw : ∀ n ∈ cs, WellFormed n.naki_code) : ∀ {args : List MeldArg},
    args.map Except.ok = (cs.map (·.naki_code)).map nakiToMeld →
    (∀ arg ∈ args, ∃ m : LogMeld, m.Valid ∧ Describes m.encode arg) ∧
    args.countP MeldArg.isKan = cs.countP (fun n => kanCode n.naki_code) ∧
    args.flatMap (·.tiles) = cs.flatMap (fun n => argTiles n.naki_code) := by
  induction cs with
  | nil =>
    intro args h
    simp only [List.map_nil, List.map_eq_nil_iff] at h
    subst h
    simp
  | cons n cs ih =>
    intro args h
    cases args with
    | nil => simp at h
    | cons arg args =>
      simp only [List.map_cons, List.cons.injEq] at h
      obtain ⟨h1, h2⟩ := h
      obtain ⟨i1, i2, i3⟩ := ih (fun n hn => hw n (by simp [hn])) h2
      obtain ⟨m, hv, hm⟩ := (C93_covers _).1 (hw n (by simp))
      obtain ⟨arg', g1, g2, g3, _⟩ := arg_meld m hv
      have ha : arg = arg' := by
        rw [← hm, g1] at h1
        exact Except.ok.inj h1
      subst ha
      refine ⟨?_, ?_, ?_⟩
      · intro x hx
        rcases List.mem_cons.1 hx with rfl | hx
        · exact ⟨m, hv, g2⟩
        · exact i1 x hx
      · rw [List.countP_cons, List.countP_cons, i2, g3, hm]
      · rw [List.flatMap_cons, List.flatMap_cons, i3, argTiles_eq h1.symm]

theorem total34_eq (f : Nat → Int) (h : ∀ k < 34, 0 ≤ f k) : (total34 (fun k => (f k).toNat) : Int) = sum34 f := by
  unfold total34 sum34
  have key : ∀ l : List Nat, (∀ k ∈ l, k < 34) → (((l.map fun k => (f k).toNat).sum : Nat) : Int) = (l.map f).sum := by
    intro l
    induction l with
    | nil => intro _; rfl
    | cons k l ih =>
      intro hl
      simp only [List.map_cons, List.sum_cons]
      have := ih (fun k hk => hl k (by simp [hk]))
      have := h k (hl k (by simp))
      omega
  exact key _ (fun k hk => List.mem_range.1 hk)

theorem table_lt {c : RoundCfg} {s0 : RoundSt} {acts : List Act} {s : RoundSt} (hr : Reached c s0 acts s) (p : Nat) :
    ∀ t ∈ collect (Act.exposed p) acts ++ collect (Act.called p) acts, t < 136 := by
  refine hr.induct (P := fun acts _ => ∀ t ∈ collect (Act.exposed p) acts ++ collect (Act.called p) acts, t < 136) ?_ ?_
  · simp [collect]
  · intro acts s act s' _ ih he t ht
    rw [collect_snoc, collect_snoc] at ht
    have old : t ∈ collect (Act.exposed p) acts ∨ t ∈ collect (Act.called p) acts → t < 136 :=
      fun h => ih t (List.mem_append.2 h)
    cases he with
    | @call q code _ e =>
      simp only [List.mem_append, Act.exposed, Act.called, e.called] at ht
      have he : exposedTiles code = e.ex := by unfold exposedTiles; rw [e.exposed_eq]
      rw [he] at ht
      rcases ht with (h | h) | (h | h)
      · exact old (.inl h)
      · split at h
        · exact e.ex_lt t h
        · simp at h
      · exact old (.inr h)
      · split at h
        · exact e.acq_lt t h
        · simp at h
    | _ => exact old (by simpa [Act.exposed, Act.called] using ht)

/-- The hand of a player who is not about to discard, with one more tile, exists. -/
theorem real_hand {est : Estimate} {sh : List Int → Except PyErr Int} {g : GameInfo} {a : InitAttr}
    {c : RoundCfg} {s0 : RoundSt} (hi : initRound est sh g a = .ok (c, s0)) {hai : Nat → List Nat} {first : Nat}
    (hd : a.Deals hai first) {acts : List Act} {s : RoundSt} (hr : Reached c s0 acts s) (hk : KansByDrawer acts)
    (hw : ∀ p c, Act.call p c ∈ acts → WellFormed c) (hpc : ProperCalls acts) {p t : Nat} (hp : p < 4) (ht : t < 136)
    (hidle : extra acts p = 0)
    (hsup : ∀ k < 34, kindCount (hai p ++ collect (Act.drawn p) acts ++ collect (Act.called p) acts) k +
      (if t / 4 = k then 1 else 0) ≤ 4)
    {q : Query} {h : Nat → Int} (hstr : HandStrings q.man q.pin q.sou q.honors h)
    (hh : ∀ k < 34, h k = s.hand_tensors_full p k + if t / 4 = k then 1 else 0) (hwin : q.win_tile = t)
    (hdora : q.dora_indicators = s.doras)
    (hmelds : q.melds.map Except.ok = ((s.melds p).map (·.naki_code)).map nakiToMeld) : RealHand q := by
  obtain ⟨d⟩ := initRound_ok hi
  have hlaid := laid_reached (by rw [d.state_eq]; intro p; rfl) hr hw hpc
  obtain ⟨m1, m2, m3⟩ := arg_lists (hlaid.codes p) hmelds
  have hsz := (sizes_reached hi hr hk hw).size p hp
  rw [hidle] at hsz
  have htab : ∀ k < 34, s.hand_tensors_full p k = s.hand_tensors p k +
      (kindCount (collect (Act.exposed p) acts ++ collect (Act.called p) acts) k : Nat) := by
    intro k hk34
    rw [C57_full_hands hi hr p k, ← cnt_eq, slot_kind _ (table_lt hr p) k hk34]
  have hnn : ∀ k < 34, 0 ≤ s.hand_tensors p k := fun k hk => hand_nonneg hi hr p k (by omega)
  have hpos : ∀ k < 34, 0 ≤ h k := by
    intro k hk34
    rw [hh k hk34, htab k hk34]
    have := hnn k hk34
    split <;> omega
  refine ⟨⟨fun k => (h k).toNat, ?_, ?_, ?_, ?_⟩, m1, by omega, ?_⟩
  · exact handStrings_congr (fun k hk34 => by have := hpos k hk34; show h k = ((h k).toNat : Int); omega) hstr
  · intro k hk34
    have h1 := hh k hk34
    rw [full_owned hi hd hr p k hp hk34] at h1
    unfold owned at h1
    have h2 := hsup k hk34
    show (h k).toNat ≤ 4
    split at h1 <;> split at h2 <;> omega
  · have h1 := total34_eq h hpos
    have h2 : sum34 h = sum34 (s.hand_tensors_full p) + 1 := by
      rw [sum34_congr hh, ← sum34_addKind (s.hand_tensors_full p) t 1 ht]
      apply sum34_congr
      intro k hk34
      rw [addAt_kind, kindCount_one]
      split <;> simp
    have h3 : sum34 (s.hand_tensors_full p) = sum34 (s.hand_tensors p) +
        ((collect (Act.exposed p) acts ++ collect (Act.called p) acts).length : Int) := by
      have e1 : sum34 (s.hand_tensors_full p) = sum34 (countTiles (collect (Act.exposed p) acts ++ collect (Act.called p) acts)
          (s.hand_tensors p) 1) := by
        apply sum34_congr
        intro k hk34
        rw [htab k hk34, countTiles_eq, slot_kind _ (table_lt hr p) k hk34]
        omega
      rw [e1, sum34_countTiles _ _ _ (table_lt hr p)]
      omega
    have h4 := table_length p acts hw
    rw [m2, hlaid.kans p]
    omega
  · intro k hk34
    rw [m3, hlaid.tiles p k, hwin]
    have h1 := hh k hk34
    rw [htab k hk34] at h1
    have h2 := hnn k hk34
    show _ ≤ (h k).toNat
    split at h1
    · rename_i e; rw [if_pos e]; omega
    · rename_i e; rw [if_neg e]; omega
  · intro u hu
    rw [hdora] at hu
    have hdd : s.doras = first :: collect Act.doras acts := by
      obtain ⟨hhai, r0, h0, k0, x, y, hseed⟩ := hd
      obtain ⟨⟨_, _, _, _, _, _, e1, e2, _⟩, _⟩ := C108_table hi hr
      rw [hseed] at e1
      simp only [Except.ok.injEq, List.cons.injEq, and_true] at e1
      rw [e2, e1.2.2.2.2.2]
    rw [hdd] at hu
    rcases List.mem_cons.1 hu with rfl | hu
    · obtain ⟨hhai, r0, h0, k0, x, y, hseed⟩ := hd
      have := d.seed_eq
      rw [hseed] at this
      simp only [Except.ok.injEq, List.cons.injEq, and_true] at this
      rw [this.2.2.2.2.2]
      exact d.dora_lt
    · exact (lt_of_reached hi hr).2.1 u hu

theorem seenBy_init {hai : Nat → List Nat} {first : Nat} {acts : List Act} {x : Act} {p k : Nat} :
    kindCount (seenBy hai first (acts ++ [x]) p) k = kindCount (seenBy hai first acts p) k + kindCount (x.drawn p) k +
      kindCount (x.shownTo p) k + kindCount x.doras k := by
  unfold seenBy
  simp only [collect_snoc, kindCount_append]
  omega

theorem kansByDrawer_init {acts : List Act} {x : Act} (h : KansByDrawer (acts ++ [x])) : KansByDrawer acts :=
  fun pre p c post e => h pre p c (post ++ [x]) (by simp [e])

/-- the same events lead to the same state with other helpers that give the same answers about hands that exist -/
theorem reached_agree {est est' : Estimate} {sh sh' : List Int → Except PyErr Int} (he : ∀ q, RealHand q → est q = est' q)
    (hs : ∀ l, RealConcealed l → sh l = sh' l) {g : GameInfo} {a : InitAttr}
    {c : RoundCfg} {s0 : RoundSt} (hi : initRound est sh g a = .ok (c, s0)) {hai : Nat → List Nat} {first : Nat}
    (hd : a.Deals hai first) {acts : List Act} {s : RoundSt} (hr : Reached c s0 acts s) (hk : KansByDrawer acts)
    (hw : ∀ p c, Act.call p c ∈ acts → WellFormed c) (hpc : ProperCalls acts)
    (hsup : ∀ p < 4, ∀ k < 34, kindCount (seenBy hai first acts p) k ≤ 4) : Reached (c.helped est' sh') s0 acts s := by
  have hcest : c.estimate = est := by obtain ⟨d⟩ := initRound_ok hi; rw [d.cfg_eq]
  have hcsh : c.shanten = sh := by obtain ⟨d⟩ := initRound_ok hi; rw [d.cfg_eq]
  revert hk hw hpc hsup
  induction hr with
  | start => intro _ _ _ _; exact .start
  | @next acts s s' ev act hr ha hst ih =>
    intro hk hw hpc hsup
    have hk0 := kansByDrawer_init hk
    have hw0 : ∀ p c, Act.call p c ∈ acts → WellFormed c := fun p c h => hw p c (by simp [h])
    have heff := Reached.effect ha hst
    have hcons := effect_consistent hi hd hr heff hk hw
    refine .next (ih hk0 hw0 hpc.init (fun p hp k hk34 => ?_)) ha ?_
    · have := hsup p hp k hk34
      rw [seenBy_init] at this
      omega
    have hsup' : ∀ w < 4, ∀ t, (∀ k < 34, kindCount [t] k ≤ kindCount (act.drawn w) k + kindCount (act.shownTo w) k) →
        ∀ k < 34, kindCount (hai w ++ collect (Act.drawn w) acts ++ collect (Act.called w) acts) k +
          (if t / 4 = k then 1 else 0) ≤ 4 := by
      intro w hw4 t hx k hk34
      have h1 := hsup w hw4 k hk34
      rw [seenBy_init] at h1
      unfold seenBy at h1
      have h2 := called_shown w k acts hpc.init hw0
      have h3 := hx k hk34
      rw [kindCount_one] at h3
      simp only [kindCount_append] at h1 ⊢
      omega
    cases ev with
    | dora hai => exact hst
    | reach who one => exact hst
    | result w sc => simp [Ev.act] at ha
    | other => simp [Ev.act] at ha
    | draw p tile =>
      cases tile with
      | error e => simp [Ev.act] at ha
      | ok t =>
        simp only [Ev.act, Option.some.injEq] at ha
        subst ha
        obtain ⟨hp, hnone, ht, _⟩ := hcons
        have hidle : extra acts p = 0 := by unfold extra; rw [hnone]; simp
        have hx := hsup' p hp t (fun k _ => by simp [Act.drawn])
        have hfull : ∀ k < 34, (drawTile s p t).hand_tensors_full p k = s.hand_tensors_full p k + if t / 4 = k then 1 else 0 := by
          intro k hk34
          show addRow s.hand_tensors_full p (tile2idx t) 1 p k = _
          unfold addRow
          rw [setAt_same, addAt_tile, slot_kind [t] (by simpa using ht) k hk34, kindCount_one]
          split <;> simp
        have hhand : ∀ k < 34, (drawTile s p t).hand_tensors p k = s.hand_tensors p k + if t / 4 = k then 1 else 0 := by
          intro k hk34
          show addRow s.hand_tensors p (tile2idx t) 1 p k = _
          unfold addRow
          rw [setAt_same, addAt_tile, slot_kind [t] (by simpa using ht) k hk34, kindCount_one]
          split <;> simp
        have hreal : ∀ q, TsumoQuery q ((drawTile s p t).hand_tensors_full p)
            (winArgs c (drawTile s p t) ((drawTile s p t).remaining_tsumo == 0)) p t false ((drawTile s p t).cycles == 1)
            (decide (2 ≤ (drawTile s p t).cycles ∧ (drawTile s p t).cycles ≤ 4) && allMenzen (drawTile s p t).is_menzen) →
            RealHand q := by
          rintro q ⟨k1, k2, k3, k4, k5⟩
          exact real_hand hi hd hr hk0 hw0 hpc.init hp ht hidle hx k1 hfull k2 k3 k4
        have hclosed : RealConcealed ((List.range 34).map ((drawTile s p t).hand_tensors p)) := by
          have hszs := sizes_reached hi hr hk0 hw0
          have hsz := hszs.size p hp
          rw [hidle] at hsz
          refine ⟨by simp, ?_, setsOf p acts, (sets_le hi hr hszs p hp).1, ?_⟩
          · intro v hv
            obtain ⟨k, hk34, rfl⟩ := List.mem_map.1 hv
            have hk34 : k < 34 := List.mem_range.1 hk34
            rw [hhand k hk34]
            have h1 := hand_nonneg hi hr p k (by omega)
            have h2 := full_owned hi hd hr p k hp hk34
            rw [C57_full_hands hi hr p k] at h2
            unfold owned at h2
            have h3 := hx k hk34
            split at h3 <;> split <;> omega
          · show sum34 ((drawTile s p t).hand_tensors p) + _ = 14
            have : sum34 ((drawTile s p t).hand_tensors p) = sum34 (s.hand_tensors p) + 1 := sum34_addRow_same _ _ _ _ ht
            omega
        show stepDraw (c.helped est' sh') s p.val (.ok t) = .ok s'
        refine draw_agree hst ?_ ?_
        · rintro t' ⟨⟩ q hq
          rw [hcest]
          exact he q (hreal q hq)
        · rintro t' ⟨⟩
          rw [hcsh]
          exact hs _ hclosed
    | discard p tile =>
      cases tile with
      | error e => simp [Ev.act] at ha
      | ok t =>
        simp only [Ev.act, Option.some.injEq] at ha
        subst ha
        obtain ⟨hp, hhold, hh⟩ := hcons
        have ht : t < 136 := by
          cases heff with
          | discard _ e => exact e.tile_lt
        show stepDiscard (c.helped est' sh') s p.val (.ok t) = .ok s'
        refine discard_agree hst ?_
        rintro t' ⟨⟩ w hw4 hwp hsu q ⟨k1, k2, k3, k4, k5⟩
        rw [hcest]
        refine he q (real_hand (t := t) hi hd hr hk0 hw0 hpc.init hw4 ht ?_ (hsup' w hw4 t (fun k _ => ?_)) k1 ?_ k2 k3 k4)
        · unfold extra
          rw [hhold, if_neg (by simpa using fun h => hwp h.symm)]
        · have hne : p.val ≠ w := fun h => hwp h.symm
          simp [Act.shownTo, Act.drawn, hne, kindCount]
        · intro k hk34
          have hfull : (discardTile s p t).hand_tensors_full w = s.hand_tensors_full w := setAt_ne _ _ _ _ hwp
          rw [hfull]
          by_cases hkt : k = t / 4
          · rw [if_pos hkt, if_pos hkt.symm]
          · rw [if_neg hkt, if_neg (fun h => hkt h.symm)]; omega
    | naki m who =>
      cases m with
      | error e => simp [Ev.act] at ha
      | ok code =>
        cases who with
        | error e => simp [Ev.act] at ha
        | ok p =>
          simp only [Ev.act, Option.some.injEq] at ha
          subst ha
          show stepNaki (c.helped est' sh') s (.ok code) (.ok p) = .ok s'
          refine naki_agree hst ?_
          rintro code' p' naki ex acq ⟨⟩ ⟨⟩ hp hmk hex hkk w hw4 hwp hsu q ⟨k1, k2, k3, k4, k5⟩
          obtain ⟨m, hv, rfl⟩ := (C93_covers code).1 (hw p code (by simp))
          obtain ⟨src, j, u, w0, rfl⟩ := (kakan_encode m hv).1 hkk
          obtain ⟨e1, e2, e3⟩ := kakan_exposed hv hex
          have hexp : exposedTiles (LogMeld.kakan src j u w0).encode = [4 * j + u] := by
            unfold exposedTiles; rw [hex]; exact e1
          subst e1
          subst e2
          have hju : j < 34 ∧ u < 4 := ⟨hv.2.1, hv.2.2.1⟩
          rw [hcest]
          obtain ⟨t, hlm⟩ := hk acts p _ [] rfl (by rw [hkk]; simp)
          refine he q (real_hand (t := 4 * j + u) hi hd hr hk0 hw0 hpc.init hw4 (by omega) ?_
            (hsup' w hw4 (4 * j + u) (fun k _ => ?_)) k1 ?_ k2 k3 ?_)
          · unfold extra
            rw [hlm]
            have hne : ¬ p = w := fun h => hwp h.symm
            simp [holderOf, hne]
          · have hne : p ≠ w := fun h => hwp h.symm
            simp [Act.shownTo, hexp, hne, Act.drawn, kindCount]
          · intro k hk34
            show (if k = (4 * j + u) / 4 then s.hand_tensors_full w k + 1 else s.hand_tensors_full w k) = _
            by_cases hkt : k = (4 * j + u) / 4
            · rw [if_pos hkt, if_pos hkt.symm]
            · rw [if_neg hkt, if_neg (fun h => hkt h.symm)]; omega
          · rw [k4]
            show ((setAt s.melds p _ w).map (·.naki_code)).map nakiToMeld = _
            rw [setAt_ne _ _ _ _ hwp]

/-- a run of the loop over events that lead from one state to another -/
theorem reached_runs {c : RoundCfg} {s0 : RoundSt} {acts : List Act} {s : RoundSt} (hr : Reached c s0 acts s) :
    ∀ {evs rest : List Ev}, evs.map Ev.act = acts.map some → runEvents c (evs ++ rest) s0 = runEvents c rest s := by
  induction hr with
  | start =>
    intro evs rest h
    simp only [List.map_nil, List.map_eq_nil_iff] at h
    rw [h, List.nil_append]
  | @next acts s s' ev act hr ha hst ih =>
    intro evs rest h
    rcases List.eq_nil_or_concat evs with rfl | ⟨evs', e, rfl⟩
    · simp at h
    · rw [List.concat_eq_append, List.map_append, List.map_append] at h
      obtain ⟨h1, h2⟩ := List.append_inj' h rfl
      simp only [List.map_cons, List.map_nil, List.cons.injEq, and_true] at h2
      rw [List.concat_eq_append, List.append_assoc, ih h1, act_inj h2 ha]
      show runEvents c (ev :: rest) s = _
      have hne : ∀ w sc, ev ≠ .result w sc := by rintro w sc rfl; simp [Ev.act] at ha
      rw [runEvents_cons c _ _ _ hne, hst]

theorem init_helped {est est' : Estimate} {sh sh' : List Int → Except PyErr Int} {g : GameInfo} {a : InitAttr} {c : RoundCfg}
    {s0 : RoundSt} (hi : initRound est sh g a = .ok (c, s0)) : initRound est' sh' g a = .ok (c.helped est' sh', s0) := by
  simp only [initRound, bind_ok, checkTile_ok, checkTiles_ok, checkSeat_ok] at hi ⊢
  obtain ⟨scores, e1, parent, e2, _, e3, seed, e4, ⟨cr, hb, ky, d0⟩, e5, h0, e6, h1, e7, h2, e8, h3, e9, _, e10, _, e11, h⟩ := hi
  refine ⟨scores, e1, parent, e2, (), e3, seed, e4, ⟨cr, hb, ky, d0⟩, e5, h0, e6, h1, e7, h2, e8, h3, e9, (), e10, (), e11, ?_⟩
  by_cases hlen : h0.length = h1.length ∧ h1.length = h2.length ∧ h2.length = h3.length
  · rw [if_pos hlen] at h ⊢
    simp only [bind_ok, pure_ok, pyAssert_ok, beq_iff_eq, Prod.mk.injEq] at h ⊢
    obtain ⟨_, e12, _, e13, rfl, e15⟩ := h
    exact ⟨(), e12, (), e13, rfl, e15⟩
  · rw [if_neg hlen] at h
    cases h

/-- the deal of an accepted round, from the attributes -/
theorem deals_of_init {est : Estimate} {sh : List Int → Except PyErr Int} {g : GameInfo} {a : InitAttr} {c : RoundCfg}
    {s0 : RoundSt} (hi : initRound est sh g a = .ok (c, s0)) : ∃ hai first, a.Deals hai first := by
  obtain ⟨d⟩ := initRound_ok hi
  exact ⟨d.hai, d.dora0, d.hai_eq, _, _, _, _, _, d.seed_eq⟩

theorem runEvents_results {c c' : RoundCfg} {rest : List Ev} (h3 : ∀ e ∈ rest, ∃ w sc, e = Ev.result w (.ok sc)) {s s' : RoundSt}
    {rest' : List Ev} (h : runEvents c rest s = .ok (s', some rest')) : runEvents c' rest s = .ok (s', some rest') := by
  cases rest with
  | nil => simp [runEvents] at h
  | cons e l =>
    obtain ⟨w, sc, rfl⟩ := h3 e (by simp)
    exact h

/-- the log has calls as the rules want them -/
def Spec.ProperLog (evs : List Ev) : Prop :=
  KansByDrawer (evs.filterMap Ev.act) ∧ (∀ p c, Act.call p c ∈ evs.filterMap Ev.act → WellFormed c) ∧
    ProperCalls (evs.filterMap Ev.act)

theorem agree_one {est est' : Estimate} {sh sh' : List Int → Except PyErr Int} (he : ∀ q, RealHand q → est q = est' q)
    (hs : ∀ l, RealConcealed l → sh l = sh' l) {g : GameInfo} {a : InitAttr} {evs : List Ev} (hp : ProperLog evs) {s : RoundSt}
    (h : processRound est sh g a evs = .ok s) : processRound est' sh' g a evs = .ok s := by
  obtain ⟨c, s0, acts, rest, hi, h1, h2, h3, hr⟩ := accepted_reached h
  obtain ⟨hai, first, hd⟩ := deals_of_init hi
  have hacts : evs.filterMap Ev.act = acts := by
    have h5 : rest.filterMap Ev.act = [] := by
      rw [List.filterMap_eq_nil_iff]
      intro e he
      obtain ⟨w, sc, rfl⟩ := h3 e he
      rfl
    rw [h1, List.filterMap_append, h5, List.append_nil]
    have : ∀ (l : List Ev) (acts : List Act), l.map Ev.act = acts.map some → l.filterMap Ev.act = acts := by
      intro l
      induction l with
      | nil => intro acts h; simp at h; simp [h]
      | cons e l ih =>
        intro acts h
        cases acts with
        | nil => simp at h
        | cons x acts =>
          simp only [List.map_cons, List.cons.injEq] at h
          rw [List.filterMap_cons_some h.1, ih acts h.2]
    exact this _ _ h2
  rw [← hacts] at hr
  simp only [processRound, bind_ok] at h
  obtain ⟨⟨c', s0'⟩, hi', ⟨s1, res⟩, hrun, h6⟩ := h
  rw [hi] at hi'
  cases hi'
  cases res with
  | none => simp at h6
  | some rest' =>
    simp only [bind_ok, pure_ok, pyAssert_ok] at h6
    obtain ⟨_, h4, _, h5, rfl⟩ := h6
    have hsup := ((finalOk_iff hi hd hr).1 h5).seen
    have hr' := reached_agree he hs hi hd hr hp.1 hp.2.1 hp.2.2 hsup
    simp only [processRound, bind_ok]
    refine ⟨_, init_helped hi, (s1, some rest'), ?_, ?_⟩
    · rw [hacts] at hr hr'
      rw [h1, reached_runs hr h2] at hrun
      show runEvents (c.helped est' sh') evs s0 = _
      rw [h1, reached_runs hr' h2]
      exact runEvents_results h3 hrun
    · simp only [bind_ok, pure_ok, pyAssert_ok]
      exact ⟨(), h4, (), h5, trivial⟩

/-- C122: two hand evaluators that agree about every hand that exists, and two shanten calculators that agree about every
concealed hand that exists, give the same rounds: nothing else is ever asked. -/
theorem C122_only_real_hands {est est' : Estimate} {sh sh' : List Int → Except PyErr Int} (he : ∀ q, RealHand q → est q = est' q)
    (hs : ∀ l, RealConcealed l → sh l = sh' l) (g : GameInfo) (a : InitAttr) {evs : List Ev} (hp : ProperLog evs) (s : RoundSt) :
    processRound est sh g a evs = .ok s ↔ processRound est' sh' g a evs = .ok s :=
  ⟨agree_one he hs hp, agree_one (fun q hq => (he q hq).symm) (fun l hl => (hs l hl).symm) hp⟩

theorem logOf_acts {acts : List Act} (hw : ∀ x ∈ acts, x.who < 4) {rs : List Ev} (hrs : ∀ e ∈ rs, ∃ w sc, e = Ev.result w (.ok sc)) :
    (logOf acts ++ rs).filterMap Ev.act = acts := by
  rw [List.filterMap_append]
  have h1 : rs.filterMap Ev.act = [] := by
    rw [List.filterMap_eq_nil_iff]
    intro e he
    obtain ⟨w, sc, rfl⟩ := hrs e he
    rfl
  rw [h1, List.append_nil]
  induction acts with
  | nil => rfl
  | cons x l ih =>
    show (x.entry :: logOf l).filterMap Ev.act = x :: l
    rw [List.filterMap_cons_some (entry_act (hw x (by simp))), ih (fun y hy => hw y (by simp [hy]))]

/-- C122: a legal round is processed completely with a hand evaluator and a shanten calculator that only answer questions
about hands that exist. -/
theorem C122_accepted {est : Estimate} {sh : List Int → Except PyErr Int} (he : ∀ q, RealHand q → ∃ b, est q = .ok b)
    (hs : ∀ l, RealConcealed l → ∃ n, sh l = .ok n) (g : GameInfo) {a : InitAttr} {sc : List Int} (hsc : a.ten = .ok sc)
    (hsc4 : sc.length = 4) {oya : Nat} (hoya : a.oya = .ok oya) (hoya4 : oya < 4) {hai : Nat → List Nat} {first : Nat}
    (hd : a.Deals hai first) (hf : FairDeal hai first) {acts : List Act} (hl : LegalRound hai first acts)
    (hp : ProperCalls acts) {rs : List Ev} (hne : rs ≠ []) (hrs : ∀ e ∈ rs, ∃ w sc, e = .result w (.ok sc)) :
    ∃ s, processRound est sh g a (logOf acts ++ rs) = .ok s := by
  let est' : Estimate := fun q => match est q with | .ok b => .ok b | .error _ => .ok false
  let sh' : List Int → Except PyErr Int := fun l => match sh l with | .ok n => .ok n | .error _ => .ok 0
  have he' : ∀ q, ∃ b, est' q = .ok b := by
    intro q
    simp only [est']
    cases est q <;> exact ⟨_, rfl⟩
  have hs' : ∀ l, ∃ b, sh' l = .ok b := by
    intro l
    simp only [sh']
    cases sh l <;> exact ⟨_, rfl⟩
  obtain ⟨s, h⟩ := C115_accepted he' hs' g hsc hsc4 hoya hoya4 hd hf hl hne hrs
  refine ⟨s, (C122_only_real_hands ?_ ?_ g a ?_ s).2 h⟩
  · intro q hq
    obtain ⟨b, hb⟩ := he q hq
    show est q = match est q with | .ok b => .ok b | .error _ => .ok false
    rw [hb]
  · intro l hl
    obtain ⟨b, hb⟩ := hs l hl
    show sh l = match sh l with | .ok b => .ok b | .error _ => .ok 0
    rw [hb]
  · unfold ProperLog
    rw [logOf_acts hl.consistent.who hrs]
    exact ⟨hl.consistent.kans, hl.consistent.codes, hp⟩

/-! a legal round with a pon that is extended to a kan -/

theorem proper_snoc {acts : List Act} {x : Act} (h : ProperCalls acts)
    (hx : ∀ p (m : LogMeld) t, x = .call p m.encode → m.Valid → m.tiles.2 = some t → ∃ q, q ≠ p ∧ lastMove acts = some (.discard q t))
    (hk : ∀ p src k u w, x = .call p (LogMeld.kakan src k u w).encode → (LogMeld.kakan src k u w).Valid →
      ∃ pre1 pre2 src' u' w', (LogMeld.pon src' k u' w').Valid ∧ acts = pre1 ++ .call p (LogMeld.pon src' k u' w').encode :: pre2 ∧
      ∀ src'' u'' w'', (LogMeld.kakan src'' k u'' w'').Valid → Act.call p (LogMeld.kakan src'' k u'' w'').encode ∉ pre2) :
    ProperCalls (acts ++ [x]) := by
  refine ⟨?_, ?_⟩
  · intro pre p m post t e
    rcases List.eq_nil_or_concat post with rfl | ⟨post', z, rfl⟩
    · obtain ⟨rfl, h2⟩ := List.append_inj' e rfl
      simp only [List.cons.injEq, and_true] at h2
      exact hx p m t h2
    · rw [List.concat_eq_append, ← List.cons_append, ← List.append_assoc] at e
      obtain ⟨h1, _⟩ := List.append_inj' e rfl
      exact h.claims pre p m post' t h1
  · intro pre p src k u w post e
    rcases List.eq_nil_or_concat post with rfl | ⟨post', z, rfl⟩
    · obtain ⟨rfl, h2⟩ := List.append_inj' e rfl
      simp only [List.cons.injEq, and_true] at h2
      exact hk p src k u w h2
    · rw [List.concat_eq_append, ← List.cons_append, ← List.append_assoc] at e
      obtain ⟨h1, _⟩ := List.append_inj' e rfl
      exact h.extending pre p src k u w post' h1

theorem proper_plain {acts : List Act} {x : Act} (h : ProperCalls acts) (hx : ∀ p c, x ≠ .call p c) : ProperCalls (acts ++ [x]) :=
  proper_snoc h (fun p m _ e => absurd e (hx p _)) (fun p _ _ _ _ e => absurd e (hx p _))

def addedActs : List Act := addActs 20 83 ++ [.call 1 kakanCode, .draw 1 124, .discard 1 124]

theorem dealAdd_fair : FairDeal dealtAdd 132 := ⟨by decide, by decide, by decide⟩

theorem addedActs_legal : LegalRound dealtAdd 132 addedActs := by
  have h0 : LegalRound dealtAdd 132 [] := by intro pre x post e; simp at e
  have h1 := legal_snoc h0 (x := .draw 0 120) ⟨by decide, by decide, by decide⟩
  have h2 := legal_snoc h1 (x := .discard 0 82) ⟨by decide, by decide, by decide⟩
  have h3 := legal_snoc h2 (x := .call 1 addPonCode)
    ⟨by decide, .pon 3 20 3 2, ⟨by decide, by decide, by decide, by decide⟩, rfl, by decide, 0, 82, rfl⟩
  have h4 := legal_snoc h3 (x := .discard 1 20) ⟨by decide, by decide, by decide⟩
  have h5 := legal_snoc h4 (x := .draw 2 121) ⟨by decide, by decide, by decide⟩
  have h6 := legal_snoc h5 (x := .discard 2 121) ⟨by decide, by decide, by decide⟩
  have h7 := legal_snoc h6 (x := .draw 3 122) ⟨by decide, by decide, by decide⟩
  have h8 := legal_snoc h7 (x := .discard 3 122) ⟨by decide, by decide, by decide⟩
  have h9 := legal_snoc h8 (x := .draw 0 123) ⟨by decide, by decide, by decide⟩
  have h10 := legal_snoc h9 (x := .discard 0 123) ⟨by decide, by decide, by decide⟩
  have h11 := legal_snoc h10 (x := .draw 1 83) ⟨by decide, by decide, by decide⟩
  have h12 := legal_snoc h11 (x := .call 1 kakanCode)
    ⟨by decide, .kakan 3 20 3 2, ⟨by decide, by decide, by decide, by decide⟩, rfl, by decide, 83, rfl⟩
  have h13 := legal_snoc h12 (x := .draw 1 124) ⟨by decide, by decide, by decide⟩
  exact legal_snoc h13 (x := .discard 1 124) ⟨by decide, by decide, by decide⟩

theorem addedActs_proper : ProperCalls addedActs := by
  have h0 : ProperCalls [] := ⟨by intro pre p m post t e; simp at e, by intro pre p src k u w post e; simp at e⟩
  have h1 := proper_plain h0 (x := .draw 0 120) (by simp)
  have h2 := proper_plain h1 (x := .discard 0 82) (by simp)
  have h3 := proper_snoc h2 (x := .call 1 addPonCode) (by
      intro p m t e hv ht
      simp only [Act.call.injEq] at e
      obtain ⟨rfl, e⟩ := e
      have h := (C93_tiles m hv).1
      have h' := (C93_tiles (.pon 3 20 3 2) ⟨by decide, by decide, by decide, by decide⟩).1
      rw [← e] at h
      have h'' := congrArg Prod.snd (Except.ok.inj (h.symm.trans h'))
      rw [ht] at h''
      have ht : t = 82 := Option.some.inj (h''.trans (by decide : _ = some 82))
      exact ⟨0, by decide, by rw [ht]; rfl⟩) (by
      intro p src k u w e hv
      simp only [Act.call.injEq] at e
      have := (kakan_encode _ hv).2 ⟨src, k, u, w, rfl⟩
      rw [← e.2] at this
      exact absurd this (by decide))
  have h4 := proper_plain h3 (x := .discard 1 20) (by simp)
  have h5 := proper_plain h4 (x := .draw 2 121) (by simp)
  have h6 := proper_plain h5 (x := .discard 2 121) (by simp)
  have h7 := proper_plain h6 (x := .draw 3 122) (by simp)
  have h8 := proper_plain h7 (x := .discard 3 122) (by simp)
  have h9 := proper_plain h8 (x := .draw 0 123) (by simp)
  have h10 := proper_plain h9 (x := .discard 0 123) (by simp)
  have h11 := proper_plain h10 (x := .draw 1 83) (by simp)
  have h12 := proper_snoc h11 (x := .call 1 kakanCode) (by
      intro p m t e hv ht
      simp only [Act.call.injEq] at e
      have h := (C93_tiles m hv).1
      have h' := (C93_tiles (.kakan 3 20 3 2) ⟨by decide, by decide, by decide, by decide⟩).1
      rw [← e.2] at h
      have h'' := congrArg Prod.snd (Except.ok.inj (h.symm.trans h'))
      rw [ht] at h''
      cases h'') (by
      intro p src k u w e hv
      simp only [Act.call.injEq] at e
      obtain ⟨rfl, e⟩ := e
      have h := (C93_tiles _ hv).1
      have h' := (C93_tiles (.kakan 3 20 3 2) ⟨by decide, by decide, by decide, by decide⟩).1
      rw [← e] at h
      have h'' := congrArg Prod.fst (Except.ok.inj (h.symm.trans h'))
      simp only [LogMeld.tiles, List.cons.injEq, and_true] at h''
      have hk : k = 20 := by obtain ⟨_, _, _, _⟩ := hv; omega
      subst hk
      refine ⟨[.draw 0 120, .discard 0 82], [.discard 1 20, .draw 2 121, .discard 2 121, .draw 3 122, .discard 3 122,
        .draw 0 123, .discard 0 123, .draw 1 83], 3, 3, 2, ⟨by decide, by decide, by decide, by decide⟩, rfl, ?_⟩
      intro _ _ _ _
      simp)
  have h13 := proper_plain h12 (x := .draw 1 124) (by simp)
  exact proper_plain h13 (x := .discard 1 124) (by simp)

/-- an evaluator that only answers questions about hands that exist -/
noncomputable def strict : Estimate := fun q => by classical exact if RealHand q then .ok false else .error .value

/-- a shanten calculator that only answers questions about concealed hands that exist -/
noncomputable def strictShanten : List Int → Except PyErr Int := fun l => by
  classical exact if RealConcealed l then .ok 3 else .error .value

example : ∃ s, processRound strict strictShanten ⟨0⟩ dealAdd (logOf addedActs ++ [.result false (.ok [])]) = .ok s :=
  C122_accepted (fun q hq => ⟨false, if_pos hq⟩) (fun l hl => ⟨3, if_pos hl⟩) ⟨0⟩ rfl rfl rfl (by decide) dealAdd_deals dealAdd_fair
    addedActs_legal addedActs_proper (by simp) (by simp)

end MJ
