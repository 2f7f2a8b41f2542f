import Verif.Model.Train
/-!
C73, C74: which checkpoint is resumed, and what sequences of interrupted training runs save.
-/
namespace MJ

/-! ### Specification -/

/-- the name is a checkpoint of this model: prefix, digits, `.pt`, nothing else -/
def IsCkpt (digit : Char → Option Nat) (model : List Char) (n : Nat) (name : List Char) : Prop :=
  ∃ cs ds, name = ckptPrefix model ++ cs ++ ptSuffix ∧ cs.map digit = ds.map some ∧ ds ≠ [] ∧ digitsValue ds = n

/-- what is assumed of `\d` and `int`: the ten ASCII digits have their value, a dot is not a digit -/
structure DigitsOk (digit : Char → Option Nat) : Prop where
  ascii : ∀ d < 10, digit (Char.ofNat (48 + d)) = some d
  dot : digit '.' = none

/-- the number `find_latest_checkpoint` attributes to a directory entry -/
def numberOf (digit : Char → Option Nat) (model name : List Char) : Option Nat :=
  if globMatch model name then reSearch digit model (inDir name) else none

/-! ### The loop computes a maximum -/

theorem latestLoop_spec {digit : Char → Option Nat} {model : List Char} : ∀ (files : List (List Char)) (m : Int)
    (latest : Option (List Char)) (m' : Int) (latest' : Option (List Char)),
    latestLoop digit model files m latest = (m', latest') →
    m ≤ m' ∧ (∀ f ∈ files, ∀ n, reSearch digit model (inDir f) = some n → (n : Int) ≤ m') ∧
    ((m' = m ∧ latest' = latest) ∨
      ∃ pre f post n, files = pre ++ f :: post ∧ latest' = some f ∧ reSearch digit model (inDir f) = some n ∧ m' = n ∧
        m < n ∧ ∀ g ∈ pre, ∀ k, reSearch digit model (inDir g) = some k → k < n) := by
  intro files
  induction files with
  | nil =>
    intro m latest m' latest' h
    simp only [latestLoop, Prod.mk.injEq] at h
    obtain ⟨rfl, rfl⟩ := h
    exact ⟨Int.le_refl _, by simp, .inl ⟨rfl, rfl⟩⟩
  | cons file files ih =>
    intro m latest m' latest' h
    unfold latestLoop at h
    cases hs : reSearch digit model (inDir file) with
    | none =>
      rw [hs] at h
      obtain ⟨h1, h2, h3⟩ := ih m latest m' latest' h
      refine ⟨h1, ?_, ?_⟩
      · intro f hf n hn
        rcases List.mem_cons.1 hf with rfl | hf
        · rw [hs] at hn; cases hn
        · exact h2 f hf n hn
      · rcases h3 with h3 | ⟨pre, f, post, n, rfl, h4, h5, h6, h7, h8⟩
        · exact .inl h3
        · refine .inr ⟨file :: pre, f, post, n, rfl, h4, h5, h6, h7, ?_⟩
          intro g hg k hk
          rcases List.mem_cons.1 hg with rfl | hg
          · rw [hs] at hk; cases hk
          · exact h8 g hg k hk
    | some i =>
      rw [hs] at h
      by_cases hgt : (i : Int) > m
      · simp only [if_pos hgt] at h
        obtain ⟨h1, h2, h3⟩ := ih i (some file) m' latest' h
        refine ⟨by omega, ?_, ?_⟩
        · intro f hf n hn
          rcases List.mem_cons.1 hf with rfl | hf
          · rw [hs] at hn; cases hn; exact h1
          · exact h2 f hf n hn
        · rcases h3 with ⟨rfl, rfl⟩ | ⟨pre, f, post, n, rfl, h4, h5, h6, h7, h8⟩
          · exact .inr ⟨[], file, files, i, rfl, rfl, hs, rfl, hgt, by simp⟩
          · refine .inr ⟨file :: pre, f, post, n, rfl, h4, h5, h6, by omega, ?_⟩
            intro g hg k hk
            rcases List.mem_cons.1 hg with rfl | hg
            · rw [hs] at hk; cases hk; omega
            · exact h8 g hg k hk
      · simp only [if_neg hgt] at h
        obtain ⟨h1, h2, h3⟩ := ih m latest m' latest' h
        refine ⟨h1, ?_, ?_⟩
        · intro f hf n hn
          rcases List.mem_cons.1 hf with rfl | hf
          · rw [hs] at hn; cases hn; omega
          · exact h2 f hf n hn
        · rcases h3 with h3 | ⟨pre, f, post, n, rfl, h4, h5, h6, h7, h8⟩
          · exact .inl h3
          · refine .inr ⟨file :: pre, f, post, n, rfl, h4, h5, h6, h7, ?_⟩
            intro g hg k hk
            rcases List.mem_cons.1 hg with rfl | hg
            · rw [hs] at hk; cases hk; omega
            · exact h8 g hg k hk

/-- C73, for every directory and every listing order: if an entry has a number, an entry with the highest number
is returned together with that number; otherwise (0, None). -/
theorem C73_highest (digit : Char → Option Nat) (model : List Char) (listing : List (List Char)) :
    ((∀ f ∈ listing, numberOf digit model f = none) ∧ findLatest digit model listing = (0, none)) ∨
    ∃ (f : List Char) (n : Nat), findLatest digit model listing = ((n : Int), some f) ∧ f ∈ listing ∧ numberOf digit model f = some n ∧
      ∀ g ∈ listing, ∀ k, numberOf digit model g = some k → k ≤ n := by
  unfold findLatest
  cases h : latestLoop digit model (listing.filter (globMatch model)) (-1) none with
  | mk m' latest' =>
  obtain ⟨h1, h2, h3⟩ := latestLoop_spec _ _ _ _ _ h
  have hnum : ∀ f ∈ listing, ∀ n, numberOf digit model f = some n → (n : Int) ≤ m' := by
    intro f hf n hn
    unfold numberOf at hn
    split at hn
    · rename_i hg
      exact h2 f (List.mem_filter.2 ⟨hf, hg⟩) n hn
    · cases hn
  rcases h3 with ⟨rfl, rfl⟩ | ⟨pre, f, post, n, hsplit, rfl, h5, rfl, h7, h8⟩
  · refine .inl ⟨?_, rfl⟩
    intro f hf
    cases hn : numberOf digit model f with
    | none => rfl
    | some n =>
      have := hnum f hf n hn
      omega
  · have hf : f ∈ listing.filter (globMatch model) := by rw [hsplit]; simp
    obtain ⟨hf1, hf2⟩ := List.mem_filter.1 hf
    refine .inr ⟨f, n, rfl, hf1, ?_, ?_⟩
    · unfold numberOf
      rw [if_pos hf2, h5]
    · intro g hg k hk
      have := hnum g hg k hk
      omega

/-- C73: the number returned does not depend on the listing order, and neither does the file if no two entries
have the same number. -/
theorem C73_order (digit : Char → Option Nat) (model : List Char) (l l' : List (List Char))
    (h : ∀ f, f ∈ l ↔ f ∈ l') :
    (findLatest digit model l).1 = (findLatest digit model l').1 ∧
    ((∀ f ∈ l, ∀ g ∈ l, ∀ n, numberOf digit model f = some n → numberOf digit model g = some n → f = g) →
      findLatest digit model l = findLatest digit model l') := by
  rcases C73_highest digit model l with ⟨a1, a2⟩ | ⟨f, n, a1, a2, a3, a4⟩ <;>
    rcases C73_highest digit model l' with ⟨b1, b2⟩ | ⟨g, k, b1, b2, b3, b4⟩
  · rw [a2, b2]; exact ⟨rfl, fun _ => rfl⟩
  · have := a1 g ((h g).2 b2)
    rw [this] at b3; cases b3
  · have := b1 f ((h f).1 a2)
    rw [this] at a3; cases a3
  · have h1 := a4 g ((h g).2 b2) k b3
    have h2 := b4 f ((h f).1 a2) n a3
    have : n = k := by omega
    subst this
    rw [a1, b1]
    refine ⟨rfl, fun hu => ?_⟩
    rw [hu f a2 g ((h g).2 b2) n a3 b3]

/-! ### Which names have a number -/

theorem digitRun_map {digit : Char → Option Nat} : ∀ {cs : List Char} {ds : List Nat} {rest : List Char},
    cs.map digit = ds.map some → (∀ c, rest.head? = some c → digit c = none) →
    digitRun digit (cs ++ rest) = (ds, rest) := by
  intro cs
  induction cs with
  | nil =>
    intro ds rest h hr
    cases ds with
    | cons d ds => simp at h
    | nil =>
      cases rest with
      | nil => rfl
      | cons c rest => simp [digitRun, hr c rfl]
  | cons c cs ih =>
    intro ds rest h hr
    cases ds with
    | nil => simp at h
    | cons d ds =>
      simp only [List.map_cons, List.cons.injEq] at h
      simp only [List.cons_append, digitRun, h.1, ih h.2 hr]

theorem digitRun_spec {digit : Char → Option Nat} : ∀ (cs : List Char),
    ∃ as, cs = as ++ (digitRun digit cs).2 ∧ as.map digit = (digitRun digit cs).1.map some := by
  intro cs
  induction cs with
  | nil => exact ⟨[], rfl, rfl⟩
  | cons c cs ih =>
    unfold digitRun
    cases hd : digit c with
    | none => exact ⟨[], rfl, rfl⟩
    | some d =>
      obtain ⟨as, h1, h2⟩ := ih
      refine ⟨c :: as, ?_, ?_⟩
      · simp only [List.cons_append, List.cons.injEq, true_and]; exact h1
      · simp only [List.map_cons, hd, h2]

theorem matchHere_ckpt {digit : Char → Option Nat} (hd : DigitsOk digit) {model name : List Char} {n : Nat}
    (h : IsCkpt digit model n name) : matchHere digit model name = some n := by
  obtain ⟨cs, ds, rfl, h1, h2, h3⟩ := h
  unfold matchHere
  have hp : (ckptPrefix model).isPrefixOf (ckptPrefix model ++ cs ++ ptSuffix) = true := by
    rw [List.isPrefixOf_iff_prefix, List.append_assoc]
    exact List.prefix_append _ _
  rw [if_pos hp]
  have hdrop : (ckptPrefix model ++ cs ++ ptSuffix).drop (ckptPrefix model).length = cs ++ ptSuffix := by
    rw [List.append_assoc, List.drop_left]
  have hr : digitRun digit (cs ++ ptSuffix) = (ds, ptSuffix) := by
    refine digitRun_map h1 ?_
    intro c hc
    simp [ptSuffix] at hc
    subst hc
    exact hd.dot
  rw [hdrop, hr]
  simp [h2, h3]

/-- no match starts inside `saved_models/` -/
theorem reSearch_inDir {digit : Char → Option Nat} {model name : List Char} :
    reSearch digit model (inDir name) = reSearch digit model name := by
  have no : ∀ (c : Char) (cs : List Char), (c ≠ 'm' ∨ cs.take 5 ≠ "odel_".toList) →
      reSearch digit model (c :: cs) = reSearch digit model cs := by
    intro c cs h
    have : matchHere digit model (c :: cs) = none := by
      unfold matchHere
      rw [if_neg]
      intro hp
      rw [List.isPrefixOf_iff_prefix] at hp
      obtain ⟨t, ht⟩ := hp
      have e : c :: cs = 'm' :: 'o' :: 'd' :: 'e' :: 'l' :: '_' :: (model ++ "_checkpoint_iter_".toList ++ t) := by
        rw [← ht]; simp [ckptPrefix]
      simp only [List.cons.injEq] at e
      obtain ⟨rfl, rfl⟩ := e
      rcases h with h | h
      · exact h rfl
      · exact h (by simp)
    rw [reSearch, this]
  show reSearch digit model ('s' :: 'a' :: 'v' :: 'e' :: 'd' :: '_' :: 'm' :: 'o' :: 'd' :: 'e' :: 'l' :: 's' :: '/' :: name) = _
  rw [no _ _ (.inl (by decide)), no _ _ (.inl (by decide)), no _ _ (.inl (by decide)), no _ _ (.inl (by decide)),
    no _ _ (.inl (by decide)), no _ _ (.inl (by decide)), no _ _ (.inr (by simp)), no _ _ (.inl (by decide)),
    no _ _ (.inl (by decide)), no _ _ (.inl (by decide)), no _ _ (.inl (by decide)), no _ _ (.inl (by decide)),
    no _ _ (.inl (by decide))]

/-- C73: a checkpoint of the model has its iteration number as number. -/
theorem C73_number {digit : Char → Option Nat} (hd : DigitsOk digit) {model name : List Char} {n : Nat}
    (h : IsCkpt digit model n name) : numberOf digit model name = some n := by
  have hm := matchHere_ckpt hd h
  unfold numberOf
  have hg : globMatch model name = true := by
    obtain ⟨cs, ds, rfl, _⟩ := h
    unfold globMatch
    have hp : (ckptPrefix model).isPrefixOf (ckptPrefix model ++ cs ++ ptSuffix) = true := by
      rw [List.isPrefixOf_iff_prefix, List.append_assoc]
      exact List.prefix_append _ _
    have hdrop : (ckptPrefix model ++ cs ++ ptSuffix).drop (ckptPrefix model).length = cs ++ ptSuffix := by
      rw [List.append_assoc, List.drop_left]
    rw [hp, hdrop, Bool.true_and, List.isSuffixOf_iff_suffix]
    exact List.suffix_append _ _
  rw [if_pos hg, reSearch_inDir]
  cases name with
  | nil => rw [reSearch, hm]
  | cons c cs => rw [reSearch, hm]

/-- the checkpoints of `other` never match the pattern of `model` -/
def separate (model other : List Char) : Bool :=
  !(ckptPrefix model).isPrefixOf (ckptPrefix other) && !(ckptPrefix other).isPrefixOf (ckptPrefix model)

/-- the nine models do not see each other's checkpoints -/
theorem trainable_separate : ∀ a ∈ trainable, ∀ b ∈ trainable, a.1 ≠ b.1 → separate a.1 b.1 = true := by
  decide +kernel

theorem globMatch_other {model other : List Char} (h : separate model other = true) (rest : List Char) :
    globMatch model (ckptPrefix other ++ rest) = false := by
  unfold separate at h
  simp only [Bool.and_eq_true, Bool.not_eq_true', ← Bool.not_eq_true, List.isPrefixOf_iff_prefix] at h
  unfold globMatch
  rw [Bool.and_eq_false_iff]
  left
  rw [← Bool.not_eq_true, List.isPrefixOf_iff_prefix]
  intro hp
  rcases Nat.le_total (ckptPrefix model).length (ckptPrefix other).length with hl | hl
  · exact h.1 (List.prefix_of_prefix_length_le hp (List.prefix_append _ _) hl)
  · exact h.2 (List.prefix_of_prefix_length_le (List.prefix_append _ _) hp hl)

/-- C73: files that do not begin with the model's prefix or do not end in `.pt`, in particular the checkpoints of
the other eight models, are ignored. -/
theorem C73_ignored (digit : Char → Option Nat) (model name : List Char) :
    (globMatch model name = false → numberOf digit model name = none) ∧
    (∀ a ∈ trainable, ∀ b ∈ trainable, a.1 ≠ b.1 → ∀ n, numberOf digit a.1 (ckptName b.1 n) = none) := by
  refine ⟨fun h => by simp [numberOf, h], ?_⟩
  intro a ha b hb hne n
  unfold numberOf ckptName
  rw [List.append_assoc, globMatch_other (trainable_separate a ha b hb hne)]
  simp

/-- C73: conversely, a number is read only from a name in which the prefix, digits of that value and `.pt` follow one
another somewhere (the regular expression is not anchored at the end). -/
theorem C73_number_only {digit : Char → Option Nat} {model name : List Char} {n : Nat}
    (h : numberOf digit model name = some n) : globMatch model name = true ∧
    ∃ pre cs ds post, inDir name = pre ++ ckptPrefix model ++ cs ++ ptSuffix ++ post ∧ cs.map digit = ds.map some ∧
      ds ≠ [] ∧ digitsValue ds = n := by
  have here : ∀ text, matchHere digit model text = some n → ∃ cs ds post,
      text = ckptPrefix model ++ cs ++ ptSuffix ++ post ∧ cs.map digit = ds.map some ∧ ds ≠ [] ∧ digitsValue ds = n := by
    intro text hm
    unfold matchHere at hm
    split at hm
    · rename_i hp
      obtain ⟨cs, e1, e2⟩ := digitRun_spec (digit := digit) (text.drop (ckptPrefix model).length)
      dsimp only at hm
      split at hm
      · rename_i hc
        obtain ⟨post, e3⟩ := List.isPrefixOf_iff_prefix.mp hc.2
        obtain ⟨t, e4⟩ := List.isPrefixOf_iff_prefix.mp hp
        refine ⟨cs, _, post, ?_, e2, hc.1, Option.some.inj hm⟩
        have e5 : text.drop (ckptPrefix model).length = t := by
          rw [← e4]; exact List.drop_left
        rw [List.append_assoc, List.append_assoc, e3, ← e1, e5, e4]
      · cases hm
    · cases hm
  have search : ∀ text, reSearch digit model text = some n → ∃ pre cs ds post,
      text = pre ++ ckptPrefix model ++ cs ++ ptSuffix ++ post ∧ cs.map digit = ds.map some ∧ ds ≠ [] ∧
      digitsValue ds = n := by
    intro text
    induction text with
    | nil =>
      intro hm
      obtain ⟨cs, ds, post, h1, h2⟩ := here [] hm
      exact ⟨[], cs, ds, post, h1, h2⟩
    | cons c text ih =>
      intro hm
      unfold reSearch at hm
      cases hh : matchHere digit model (c :: text) with
      | some k =>
        rw [hh] at hm
        obtain ⟨cs, ds, post, h1, h2⟩ := here (c :: text) (hh.trans hm)
        exact ⟨[], cs, ds, post, h1, h2⟩
      | none =>
        rw [hh] at hm
        obtain ⟨pre, cs, ds, post, h1, h2⟩ := ih hm
        exact ⟨c :: pre, cs, ds, post, by rw [h1]; rfl, h2⟩
  unfold numberOf at h
  split at h
  · rename_i hg
    exact ⟨hg, search _ h⟩
  · cases h

/-- C73 does not hold for other files that match the wildcard: the regular expression is not anchored, so a backup
`…iter_9.pt.old.pt` is taken for the checkpoint of iteration 9. -/
theorem C73_unanchored_violated {digit : Char → Option Nat} (hd : DigitsOk digit) (model : List Char) :
    ∃ listing backup, backup ∈ listing ∧ (∀ n, ¬ IsCkpt digit model n backup) ∧
      (∃ good, good ∈ listing ∧ IsCkpt digit model 3 good) ∧ findLatest digit model listing = (9, some backup) := by
  have h3 : digit '3' = some 3 := hd.ascii 3 (by omega)
  have h9 : digit '9' = some 9 := hd.ascii 9 (by omega)
  have hgood : IsCkpt digit model 3 (ckptPrefix model ++ ['3'] ++ ptSuffix) :=
    ⟨['3'], [3], rfl, by simp [h3], by simp, by simp [digitsValue]⟩
  have hbad : numberOf digit model (ckptPrefix model ++ "9.pt.old.pt".toList) = some 9 := by
    have hp : (ckptPrefix model).isPrefixOf (ckptPrefix model ++ "9.pt.old.pt".toList) = true := by
      rw [List.isPrefixOf_iff_prefix]
      exact List.prefix_append _ _
    unfold numberOf
    rw [if_pos]
    · rw [reSearch_inDir]
      have hm : matchHere digit model (ckptPrefix model ++ "9.pt.old.pt".toList) = some 9 := by
        unfold matchHere
        rw [if_pos hp, List.drop_left]
        have : digitRun digit "9.pt.old.pt".toList = ([9], ".pt.old.pt".toList) := by
          show digitRun digit (['9'] ++ ".pt.old.pt".toList) = _
          refine digitRun_map (by simp [h9]) ?_
          intro c hc
          simp at hc
          subst hc
          exact hd.dot
        rw [this]
        simp [ptSuffix, digitsValue]
      cases hn : ckptPrefix model ++ "9.pt.old.pt".toList with
      | nil => rw [hn] at hm; rw [reSearch, hm]
      | cons c cs => rw [hn] at hm; rw [reSearch, hm]
    · unfold globMatch
      rw [hp, List.drop_left]
      decide
  refine ⟨[ckptPrefix model ++ ['3'] ++ ptSuffix, ckptPrefix model ++ "9.pt.old.pt".toList],
    ckptPrefix model ++ "9.pt.old.pt".toList, by simp, ?_, ⟨_, by simp, hgood⟩, ?_⟩
  · rintro n ⟨cs, ds, h1, h2, _⟩
    rw [List.append_assoc, List.append_cancel_left_eq] at h1
    have hlen : cs = "9.pt.old".toList := by
      have : "9.pt.old".toList ++ ptSuffix = cs ++ ptSuffix := by rw [← h1]; rfl
      exact (List.append_cancel_right this).symm
    subst hlen
    cases ds with
    | nil => simp at h2
    | cons d ds =>
      cases ds with
      | nil => simp at h2
      | cons d ds => simp [hd.dot] at h2
  · have hg := C73_number hd hgood
    rcases C73_highest digit model [ckptPrefix model ++ ['3'] ++ ptSuffix, ckptPrefix model ++ "9.pt.old.pt".toList] with
      ⟨a, _⟩ | ⟨f, n, a1, a2, a3, a4⟩
    · have := a _ (by simp : ckptPrefix model ++ "9.pt.old.pt".toList ∈ _)
      rw [hbad] at this; cases this
    · have := a4 _ (by simp : ckptPrefix model ++ "9.pt.old.pt".toList ∈ _) 9 hbad
      simp only [List.mem_cons, List.not_mem_nil, or_false] at a2
      rcases a2 with rfl | rfl
      · rw [hg] at a3; cases a3; omega
      · rw [hbad] at a3; cases a3; exact a1

/-! ### C74 -/

theorem digitsValue_snoc (ds : List Nat) (d : Nat) : digitsValue (ds ++ [d]) = 10 * digitsValue ds + d := by
  simp [digitsValue]

theorem decimal_digits {digit : Char → Option Nat} (hd : DigitsOk digit) (n : Nat) :
    ∃ ds, (decimal n).map digit = ds.map some ∧ ds ≠ [] ∧ digitsValue ds = n := by
  induction n using Nat.strongRecOn with
  | ind n ih =>
    rw [decimal]
    split
    · rename_i h
      exact ⟨[n], by simp [hd.ascii n h], by simp, by simp [digitsValue]⟩
    · rename_i h
      obtain ⟨ds, h1, h2, h3⟩ := ih (n / 10) (by omega)
      refine ⟨ds ++ [n % 10], by simp [h1, hd.ascii (n % 10) (by omega)], by simp, ?_⟩
      rw [digitsValue_snoc, h3]
      omega

theorem ckptName_isCkpt {digit : Char → Option Nat} (hd : DigitsOk digit) (model : List Char) (n : Nat) :
    IsCkpt digit model n (ckptName model n) := by
  obtain ⟨ds, h1, h2, h3⟩ := decimal_digits hd n
  exact ⟨decimal n, ds, rfl, h1, h2, h3⟩

theorem ckptName_inj {digit : Char → Option Nat} (hd : DigitsOk digit) {model : List Char} {n m : Nat}
    (h : ckptName model n = ckptName model m) : n = m := by
  have h1 := C73_number hd (ckptName_isCkpt hd model n)
  rw [h, C73_number hd (ckptName_isCkpt hd model m)] at h1
  cases h1
  rfl

/-- everything saved in a log, in order -/
def savesOf (log : List TrainEv) : List Nat :=
  log.filterMap (fun e => match e with | .save i => some i | .start _ _ => none)

/-- every iteration begun is the number of checkpoints written before, and uses loader `i % 8` -/
def StartsOk : Nat → List TrainEv → Prop
  | _, [] => True
  | k, .start i shard :: log => i = k ∧ shard = i % 8 ∧ StartsOk k log
  | k, .save i :: log => i = k ∧ StartsOk (k + 1) log

/-- sequences of training runs of one model: the directory may be listed in any order each time, each run may be
interrupted anywhere.  The directory may contain other files, as long as the wildcard does not match them. -/
inductive Runs (digit : Char → Option Nat) (model : List Char) : List TrainEv → List File → Prop
  | start {files : List File} (h : ∀ f ∈ files, globMatch model f.name = false) : Runs digit model [] files
  | run {log : List TrainEv} {files files' : List File} (h : Runs digit model log files)
      (hperm : ∀ f, f ∈ files' ↔ f ∈ files) (max_iters : Nat) (crash : Option (Nat × Crash)) :
      Runs digit model (log ++ (trainRun digit model max_iters crash files').1)
        (trainRun digit model max_iters crash files').2

/-- the directory holds exactly the checkpoints 0 … k-1 of this model and files not matched by the wildcard -/
structure DirOk (model : List Char) (k : Nat) (files : List File) : Prop where
  has : ∀ i < k, ∃ f ∈ files, f.name = ckptName model i
  only : ∀ f ∈ files, globMatch model f.name = false ∨ ∃ i < k, f.name = ckptName model i

theorem startsOk_append {a b : List TrainEv} {k : Nat} : StartsOk k (a ++ b) ↔
    StartsOk k a ∧ StartsOk (k + (savesOf a).length) b := by
  induction a generalizing k with
  | nil => simp [StartsOk, savesOf]
  | cons e a ih =>
    cases e with
    | start i shard =>
      simp only [List.cons_append, StartsOk, ih, savesOf, List.filterMap_cons, and_assoc]
    | save i =>
      simp only [List.cons_append, StartsOk, ih, savesOf, List.filterMap_cons, List.length_cons, and_assoc]
      rw [Nat.add_assoc, Nat.add_comm 1]

/-- in a log that passes, the saved numbers are consecutive -/
theorem saves_range {log : List TrainEv} {k : Nat} (h : StartsOk k log) :
    savesOf log = List.range' k (savesOf log).length := by
  induction log generalizing k with
  | nil => rfl
  | cons e log ih =>
    cases e with
    | start i shard => exact ih h.2.2
    | save i =>
      obtain ⟨rfl, h2⟩ := h
      show i :: savesOf log = List.range' i ((savesOf log).length + 1)
      rw [List.range'_succ, ← ih h2]

theorem DirOk.write {digit : Char → Option Nat} (hd : DigitsOk digit) {model : List Char} {k : Nat} {files : List File}
    (h : DirOk model k files) (b : Bool) : DirOk model (k + 1) (writeFile files ⟨ckptName model k, b⟩) := by
  refine ⟨?_, ?_⟩
  · intro i hi
    by_cases hik : i = k
    · subst hik
      exact ⟨⟨ckptName model i, b⟩, by simp [writeFile], rfl⟩
    · obtain ⟨f, hf, hn⟩ := h.has i (by omega)
      refine ⟨f, ?_, hn⟩
      unfold writeFile
      refine List.mem_append_left _ (List.mem_filter.2 ⟨hf, ?_⟩)
      simp only [bne_iff_ne, ne_eq]
      intro e
      rw [hn] at e
      exact hik (ckptName_inj hd e)
  · intro f hf
    unfold writeFile at hf
    rcases List.mem_append.1 hf with hf | hf
    · rcases h.only f (List.mem_filter.1 hf).1 with h | ⟨i, hi, hn⟩
      · exact .inl h
      · exact .inr ⟨i, by omega, hn⟩
    · simp only [List.mem_singleton] at hf
      subst hf
      exact .inr ⟨k, by omega, rfl⟩

theorem trainLoop_ok {digit : Char → Option Nat} (hd : DigitsOk digit) {model : List Char} (todo : Nat) :
    ∀ (crash : Option (Nat × Crash)) (k : Nat) (files : List File), DirOk model k files →
    StartsOk k (trainLoop model crash todo k files).1 ∧
    DirOk model (k + (savesOf (trainLoop model crash todo k files).1).length) (trainLoop model crash todo k files).2 := by
  induction todo with
  | zero => intro crash k files h; exact ⟨trivial, h⟩
  | succ todo ih =>
    intro crash k files h
    have go : ∀ crash', StartsOk k (.start k (k % 8) :: .save k ::
          (trainLoop model crash' todo (k + 1) (writeFile files ⟨ckptName model k, true⟩)).1) ∧
        DirOk model (k + (savesOf (.start k (k % 8) :: .save k ::
          (trainLoop model crash' todo (k + 1) (writeFile files ⟨ckptName model k, true⟩)).1)).length)
          (trainLoop model crash' todo (k + 1) (writeFile files ⟨ckptName model k, true⟩)).2 := by
      intro crash'
      obtain ⟨h1, h2⟩ := ih crash' (k + 1) _ (h.write hd true)
      refine ⟨⟨rfl, rfl, rfl, h1⟩, ?_⟩
      simp only [savesOf, List.filterMap_cons, List.length_cons] at h2 ⊢
      rw [Nat.add_assoc, Nat.add_comm 1] at h2
      exact h2
    match crash with
    | some (0, .beforeSave) => exact ⟨⟨rfl, rfl, trivial⟩, h⟩
    | some (0, .duringSave) => exact ⟨⟨rfl, rfl, rfl, trivial⟩, h.write hd false⟩
    | some (j + 1, c) => exact go _
    | none => exact go _

theorem DirOk.mem_iff {model : List Char} {k : Nat} {files files' : List File} (h : DirOk model k files)
    (hm : ∀ f, f ∈ files' ↔ f ∈ files) : DirOk model k files' :=
  ⟨fun i hi => by obtain ⟨f, hf, hn⟩ := h.has i hi; exact ⟨f, (hm f).2 hf, hn⟩, fun f hf => h.only f ((hm f).1 hf)⟩

/-- with the checkpoints 0 … k-1 on disk the next run starts at `k` -/
theorem findLatest_dirOk {digit : Char → Option Nat} (hd : DigitsOk digit) {model : List Char} {k : Nat}
    {files : List File} (h : DirOk model k files) :
    (k = 0 ∧ findLatest digit model (files.map (·.name)) = (0, none)) ∨
    (0 < k ∧ findLatest digit model (files.map (·.name)) = ((k : Int) - 1, some (ckptName model (k - 1)))) := by
  have hnum : ∀ f ∈ files.map (·.name), ∀ n, numberOf digit model f = some n → n < k ∧ f = ckptName model n := by
    intro f hf n hn
    obtain ⟨g, hg, rfl⟩ := List.mem_map.1 hf
    rcases h.only g hg with hno | ⟨i, hi, he⟩
    · rw [(C73_ignored digit model g.name).1 hno] at hn; cases hn
    · rw [he, C73_number hd (ckptName_isCkpt hd model i)] at hn
      cases hn
      exact ⟨hi, he⟩
  rcases C73_highest digit model (files.map (·.name)) with ⟨a1, a2⟩ | ⟨f, n, a1, a2, a3, a4⟩
  · left
    refine ⟨?_, a2⟩
    cases k with
    | zero => rfl
    | succ k =>
      obtain ⟨f, hf, hn⟩ := h.has 0 (by omega)
      have := a1 f.name (List.mem_map.2 ⟨f, hf, rfl⟩)
      rw [hn, C73_number hd (ckptName_isCkpt hd model 0)] at this
      cases this
  · right
    obtain ⟨h1, h2⟩ := hnum f a2 n a3
    obtain ⟨g, hg, hgn⟩ := h.has (k - 1) (by omega)
    have := a4 g.name (List.mem_map.2 ⟨g, hg, rfl⟩) (k - 1)
      (by rw [hgn]; exact C73_number hd (ckptName_isCkpt hd model (k - 1)))
    have hnk : n = k - 1 := by omega
    refine ⟨by omega, ?_⟩
    rw [a1, h2, hnk]
    congr 1
    omega

theorem runs_ok {digit : Char → Option Nat} (hd : DigitsOk digit) {model : List Char} {log : List TrainEv}
    {files : List File} (h : Runs digit model log files) :
    StartsOk 0 log ∧ DirOk model (savesOf log).length files := by
  induction h with
  | start h => exact ⟨trivial, ⟨fun i hi => by simp [savesOf] at hi, fun f hf => .inl (h f hf)⟩⟩
  | @run log files files' _ hperm max_iters crash ih =>
    obtain ⟨h1, h2⟩ := ih
    have h2 := h2.mem_iff hperm
    have key : StartsOk (savesOf log).length (trainRun digit model max_iters crash files').1 ∧
        DirOk model ((savesOf log).length + (savesOf (trainRun digit model max_iters crash files').1).length)
          (trainRun digit model max_iters crash files').2 := by
      unfold trainRun
      rcases findLatest_dirOk hd h2 with ⟨hk, e⟩ | ⟨hk, e⟩
      · rw [e]
        have := trainLoop_ok hd max_iters crash 0 files' (by rw [← hk]; exact h2)
        rw [hk]
        exact this
      · rw [e]
        dsimp only
        split
        · have e2 : ((((savesOf log).length : Int) - 1) + 1).toNat = (savesOf log).length := by omega
          rw [e2]
          exact trainLoop_ok hd max_iters crash _ files' h2
        · exact ⟨trivial, h2⟩
    refine ⟨startsOk_append.2 ⟨h1, by rw [Nat.zero_add]; exact key.1⟩, ?_⟩
    have : (savesOf (log ++ (trainRun digit model max_iters crash files').1)).length =
        (savesOf log).length + (savesOf (trainRun digit model max_iters crash files').1).length := by
      simp [savesOf]
    rw [this]
    exact key.2

/-- C74: over any sequence of interrupted runs the checkpoints written are 0, 1, 2, … in order, each once; every
iteration begun is the first one not yet saved; iteration `i` uses loader `i % 8`. -/
theorem C74_resume {digit : Char → Option Nat} (hd : DigitsOk digit) {model : List Char} {log : List TrainEv}
    {files : List File} (h : Runs digit model log files) :
    savesOf log = List.range (savesOf log).length ∧ StartsOk 0 log ∧ DirOk model (savesOf log).length files := by
  obtain ⟨h1, h2⟩ := runs_ok hd h
  refine ⟨?_, h1, h2⟩
  rw [List.range_eq_range']
  exact saves_range h1

/-- C74: a checkpoint that was only partly written blocks every later run: nothing is done and the directory stays
as it is, however often training is restarted. -/
theorem C74_partial_write_blocks {digit : Char → Option Nat} (hd : DigitsOk digit) {model : List Char} {k : Nat}
    {files : List File} (h : DirOk model (k + 1) files)
    (hbad : ∀ f ∈ files, f.name = ckptName model k → f.complete = false) (max_iters : Nat) (crash : Option (Nat × Crash)) :
    trainRun digit model max_iters crash files = ([], files) := by
  unfold trainRun
  rcases findLatest_dirOk hd h with ⟨hk, _⟩ | ⟨_, e⟩
  · omega
  · rw [e]
    have : files.any (fun f => f.name == ckptName model (k + 1 - 1) && f.complete) = false := by
      rw [List.any_eq_false]
      intro f hf
      simp only [Nat.add_sub_cancel, Bool.and_eq_true, beq_iff_eq, not_and, Bool.not_eq_true]
      exact fun hn => hbad f hf hn
    dsimp only
    rw [this]
    rfl

/-- ASCII digits, for examples -/
def asciiDigit (c : Char) : Option Nat := if '0' ≤ c ∧ c ≤ '9' then some (c.toNat - 48) else none

theorem asciiDigit_ok : DigitsOk asciiDigit := ⟨by decide, by decide⟩

/-- two runs, the first interrupted during its third iteration -/
example : (trainRun asciiDigit "transformer".toList 2 none
    (trainRun asciiDigit "transformer".toList 5 (some (2, .beforeSave)) []).2).1 =
      [.start 2 2, .save 2, .start 3 3, .save 3] := by decide +kernel

end MJ
