import Verif.Model.DataLoader
/-!
C70-C72, C82: what an epoch of the data loader yields.
-/
namespace MJ

/-- the file makes the program exit -/
def fatal {N α : Type} (process : N → Except PyErr α) (f : N) : Bool :=
  match process f with
  | .error .assertion => true
  | .error .systemExit => true
  | _ => false

/-- the games of the files that process successfully, in order -/
def valid {N α : Type} (process : N → Except PyErr α) (fs : List N) : List α :=
  fs.filterMap (fun f => (process f).toOption)

/-- the files read before the first fatal one -/
def readable {N α : Type} (process : N → Except PyErr α) (fs : List N) : List N :=
  fs.takeWhile (fun f => !fatal process f)

/-- all batches but the last have `n` games, and the last at most `n` -/
def Chunked {α : Type} (n : Nat) (bs : List (List α)) : Prop :=
  (∀ b ∈ bs.dropLast, b.length = n) ∧ ∀ b ∈ bs, b.length ≤ n

section
variable {N α : Type} {process : N → Except PyErr α}

theorem valid_append (a b : List N) : valid process (a ++ b) = valid process a ++ valid process b := by
  simp [valid]

/-- one `__next__`: the batch is the valid games of the files read, the files read are a prefix that is not
empty, and reading stops as soon as the batch is full -/
theorem fillBatch_some {n : Nat} : ∀ {fs : List N} {idx : Nat} {acc : List α} {i : Nat} {b : List α},
    fillBatch process n fs idx acc = (i, some b) → acc.length ≤ n →
    ∃ read rest, fs = read ++ rest ∧ i = idx + read.length ∧ b = acc ++ valid process read ∧
      (∀ f ∈ read, fatal process f = false) ∧ b.length ≤ n ∧ (rest ≠ [] → b.length = n) ∧
      (acc.length < n → fs ≠ [] → read ≠ []) := by
  intro fs
  induction fs with
  | nil =>
    intro idx acc i b h ha
    simp only [fillBatch, Prod.mk.injEq, Option.some.injEq] at h
    obtain ⟨rfl, rfl⟩ := h
    exact ⟨[], [], rfl, by simp, by simp [valid], by simp, ha, by simp, by simp⟩
  | cons f fs ih =>
    intro idx acc i b h ha
    by_cases hlt : acc.length < n
    · have skip : process f ≠ .error .assertion → process f ≠ .error .systemExit → (process f).toOption = none →
          fillBatch process n fs (idx + 1) acc = (i, some b) →
          ∃ read rest, f :: fs = read ++ rest ∧ i = idx + read.length ∧ b = acc ++ valid process read ∧
            (∀ f ∈ read, fatal process f = false) ∧ b.length ≤ n ∧ (rest ≠ [] → b.length = n) ∧
            (acc.length < n → f :: fs ≠ [] → read ≠ []) := by
        intro h1 h2 h3 h
        obtain ⟨read, rest, rfl, rfl, hb, hf, hn, hr, _⟩ := ih h ha
        refine ⟨f :: read, rest, rfl, by simp; omega, ?_, ?_, hn, hr, by simp⟩
        · rw [hb]; simp [valid, h3]
        · intro g hg
          rcases List.mem_cons.1 hg with rfl | hg
          · unfold fatal
            split <;> simp_all
          · exact hf g hg
      unfold fillBatch at h
      rw [if_pos hlt] at h
      cases hp : process f with
      | ok x =>
        rw [hp] at h
        obtain ⟨read, rest, rfl, rfl, hb, hf, hn, hr, _⟩ := ih h (by simp; omega)
        refine ⟨f :: read, rest, rfl, by simp; omega, ?_, ?_, hn, hr, by simp⟩
        · rw [hb]; simp [valid, hp, Except.toOption]
        · intro g hg
          rcases List.mem_cons.1 hg with rfl | hg
          · simp [fatal, hp]
          · exact hf g hg
      | error e =>
        rw [hp] at h
        cases e with
        | assertion => simp at h
        | systemExit => simp at h
        | _ => exact skip (by simp [hp]) (by simp [hp]) (by simp [hp, Except.toOption]) h
    · unfold fillBatch at h
      rw [if_neg hlt] at h
      simp only [Prod.mk.injEq, Option.some.injEq] at h
      obtain ⟨rfl, rfl⟩ := h
      exact ⟨[], f :: fs, rfl, by simp, by simp [valid], by simp, ha, fun _ => by omega, by omega⟩

/-- leaving the program: some file ahead is fatal, and the batch in progress was not full -/
theorem fillBatch_none {n : Nat} : ∀ {fs : List N} {idx : Nat} {acc : List α} {i : Nat},
    fillBatch process n fs idx acc = (i, none) →
    ∃ read f rest, fs = read ++ f :: rest ∧ (∀ f ∈ read, fatal process f = false) ∧ fatal process f = true ∧
      (acc ++ valid process read).length < n := by
  intro fs
  induction fs with
  | nil => intro idx acc i h; simp [fillBatch] at h
  | cons f fs ih =>
    intro idx acc i h
    by_cases hlt : acc.length < n
    · unfold fillBatch at h
      rw [if_pos hlt] at h
      cases hp : process f with
      | ok x =>
        rw [hp] at h
        obtain ⟨read, g, rest, rfl, hf, hg, hn⟩ := ih h
        refine ⟨f :: read, g, rest, rfl, ?_, hg, ?_⟩
        · intro g hg
          rcases List.mem_cons.1 hg with rfl | hg
          · simp [fatal, hp]
          · exact hf g hg
        · simpa [valid, hp, Except.toOption] using hn
      | error e =>
        rw [hp] at h
        have skip : fatal process f = false → fillBatch process n fs (idx + 1) acc = (i, none) →
            ∃ read g rest, f :: fs = read ++ g :: rest ∧ (∀ f ∈ read, fatal process f = false) ∧
              fatal process g = true ∧ (acc ++ valid process read).length < n := by
          intro h1 h
          obtain ⟨read, g, rest, rfl, hf, hg, hn⟩ := ih h
          refine ⟨f :: read, g, rest, rfl, ?_, hg, ?_⟩
          · intro g hg
            rcases List.mem_cons.1 hg with rfl | hg
            · exact h1
            · exact hf g hg
          · simpa [valid, hp, Except.toOption] using hn
        cases e with
        | assertion => exact ⟨[], f, fs, rfl, by simp, by simp [fatal, hp], by simpa [valid] using hlt⟩
        | systemExit => exact ⟨[], f, fs, rfl, by simp, by simp [fatal, hp], by simpa [valid] using hlt⟩
        | _ => exact skip (by simp [fatal, hp]) h
    · unfold fillBatch at h
      rw [if_neg hlt] at h
      simp at h

theorem Loader.next_keeps (l : Loader N) : (l.next process).2.file_list = l.file_list ∧
    (l.next process).2.batch_size = l.batch_size := by
  unfold Loader.next
  dsimp only
  split
  · exact ⟨rfl, rfl⟩
  · split <;> exact ⟨rfl, rfl⟩

/-- what a `for` loop gives, for `fs` the files still to read -/
structure EpochOf (process : N → Except PyErr α) (n : Nat) (fs : List N) (bs : List (List α)) (e : LoopEnd) : Prop where
  ends : e = if fs.any (fatal process) then .exited else .finished
  games : ∃ lost, valid process (readable process fs) = bs.flatten ++ lost ∧ lost.length < n ∧
    (fs.any (fatal process) = false → lost = [])
  full : ∀ b ∈ bs.dropLast, b.length = n
  small : ∀ b ∈ bs, b.length ≤ n
  allFull : fs.any (fatal process) = true → ∀ b ∈ bs, b.length = n

theorem readable_all {fs : List N} (h : ∀ f ∈ fs, fatal process f = false) : readable process fs = fs := by
  induction fs with
  | nil => rfl
  | cons f fs ih =>
    have h1 := h f (by simp)
    have ih := ih (fun g hg => h g (by simp [hg]))
    unfold readable at ih ⊢
    rw [List.takeWhile_cons_of_pos (by simp [h1]), ih]

theorem readable_append {a : List N} (b : List N) (h : ∀ f ∈ a, fatal process f = false) :
    readable process (a ++ b) = a ++ readable process b := by
  unfold readable
  rw [List.takeWhile_append_of_pos]
  intro f hf
  simp [h f hf]

/-- a `for` loop over the loader from any position, with batch size at least 1 -/
theorem Loader.loop_epoch (k : Nat) : ∀ (l : Loader N), 0 < l.batch_size →
    l.file_list.length - l.current_index < k →
    EpochOf process l.batch_size (l.file_list.drop l.current_index) (l.loop process k).1 (l.loop process k).2.1 := by
  induction k with
  | zero => intro l _ h; omega
  | succ k ih =>
    intro l hn hk
    unfold Loader.loop
    by_cases hs : l.current_index ≥ l.file_list.length
    · have e : l.next process = (.stop, { l with batch_count := l.batch_count + 1 }) := by
        unfold Loader.next
        dsimp only
        rw [if_pos hs]
      rw [e]
      have : l.file_list.drop l.current_index = [] := List.drop_eq_nil_of_le hs
      rw [this]
      exact ⟨by simp, ⟨[], by simp [readable, valid], by simpa using hn, fun _ => rfl⟩, by simp, by simp, by simp⟩
    · have hne : l.file_list.drop l.current_index ≠ [] := by
        simp only [ne_eq, List.drop_eq_nil_iff]
        omega
      cases hf : fillBatch process l.batch_size (l.file_list.drop l.current_index) l.current_index [] with
      | mk i o =>
      cases o with
      | none =>
        have e : l.next process = (.exit, { l with batch_count := l.batch_count + 1, current_index := i }) := by
          unfold Loader.next
          dsimp only
          rw [if_neg hs, hf]
        rw [e]
        obtain ⟨read, f, rest, hfs, h1, h2, h3⟩ := fillBatch_none hf
        rw [hfs]
        have hany : (read ++ f :: rest).any (fatal process) = true := by simp [h2]
        refine ⟨by rw [if_pos hany], ⟨valid process read, ?_, by simpa using h3, ?_⟩, by simp, by simp, by simp⟩
        · rw [readable_append _ h1]
          simp [readable, h2]
        · rw [hany]; simp
      | some b =>
        have e : l.next process = (.batch b, { l with batch_count := l.batch_count + 1, current_index := i }) := by
          unfold Loader.next
          dsimp only
          rw [if_neg hs, hf]
        rw [e]
        obtain ⟨read, rest, hfs, hi, hb, h1, h2, h3, h4⟩ := fillBatch_some hf (by simp)
        have hread := h4 (by simpa using hn) hne
        have hlen : 0 < read.length := List.length_pos_iff.2 hread
        have hdrop : l.file_list.drop i = rest := by
          rw [hi, ← List.drop_drop, hfs]
          simp
        have ihl := ih { l with batch_count := l.batch_count + 1, current_index := i } hn
          (by show l.file_list.length - i < k; omega)
        simp only [hdrop] at ihl
        dsimp only
        rw [hfs]
        have hany : (read ++ rest).any (fatal process) = rest.any (fatal process) := by
          rw [List.any_append]
          have : read.any (fatal process) = false := by
            rw [List.any_eq_false]
            intro f hf
            simp [h1 f hf]
          simp [this]
        obtain ⟨e1, ⟨lost, e2, e3, e4⟩, e5, e6, e7⟩ := ihl
        have hfull : ∀ (x : List α) (xs : List (List α)),
            (Loader.loop process k { l with batch_count := l.batch_count + 1, current_index := i }).1 = x :: xs →
            rest ≠ [] := by
          rintro x xs hx rfl
          have hge : i ≥ l.file_list.length := List.drop_eq_nil_iff.1 hdrop
          cases k with
          | zero => simp [Loader.loop] at hx
          | succ k =>
            unfold Loader.loop Loader.next at hx
            simp [hge] at hx
        refine ⟨?_, ⟨lost, ?_, e3, ?_⟩, ?_, ?_, ?_⟩
        · rw [hany]; exact e1
        · rw [readable_append _ h1, valid_append, e2, hb]
          simp
        · rw [hany]; exact e4
        · intro c hc
          cases hx : (Loader.loop process k { l with batch_count := l.batch_count + 1, current_index := i }).1 with
          | nil => rw [hx] at hc; simp at hc
          | cons x xs =>
            rw [hx] at hc e5
            rw [List.dropLast_cons_of_ne_nil (by simp)] at hc
            rcases List.mem_cons.1 hc with rfl | hc
            · exact h3 (hfull x xs hx)
            · exact e5 c hc
        · intro c hc
          rcases List.mem_cons.1 hc with rfl | hc
          · exact h2
          · exact e6 c hc
        · intro ha c hc
          rw [hany] at ha
          rcases List.mem_cons.1 hc with rfl | hc
          · apply h3
            rintro rfl
            simp at ha
          · exact e7 ha c hc

/-- C70: from a fresh loader or after a reset (whatever happened before), if no file is fatal, the loop ends
normally and the games of the batches together are exactly the games of the valid files, in order. -/
theorem C70_epoch (l : Loader N) (hn : 0 < l.batch_size) (hf : ∀ f ∈ l.file_list, fatal process f = false)
    {k : Nat} (hk : l.file_list.length < k) :
    ((l.reset).loop process k).2.1 = .finished ∧
    ((l.reset).loop process k).1.flatten = valid process l.file_list := by
  have h := Loader.loop_epoch (process := process) k l.reset hn hk
  have hany : l.file_list.any (fatal process) = false := by
    rw [List.any_eq_false]
    intro f hh
    simp [hf f hh]
  have e : l.reset.file_list.drop l.reset.current_index = l.file_list := rfl
  rw [e] at h
  obtain ⟨h1, ⟨lost, h2, _, h3⟩, _⟩ := h
  rw [hany] at h1
  rw [readable_all hf, h3 hany] at h2
  exact ⟨h1, by simpa using h2.symm⟩

/-- C70: `__init__` starts at the beginning of the directory -/
theorem C70_fresh (listing : List N) (n : Nat) : (Loader.init listing n).reset = Loader.init listing n ∧
    (Loader.init listing n).file_list = listing := ⟨rfl, rfl⟩

/-- C71: every batch has at most `batch_size` games, every batch but the last has exactly `batch_size`, and the
loop ends after at most one call per file and one more. -/
theorem C71_full (l : Loader N) (hn : 0 < l.batch_size) {k : Nat} (hk : l.file_list.length < k) :
    Chunked l.batch_size ((l.reset).loop process k).1 ∧ ((l.reset).loop process k).2.1 ≠ .running := by
  have h := Loader.loop_epoch (process := process) k l.reset hn hk
  refine ⟨⟨h.full, h.small⟩, ?_⟩
  rw [h.ends]
  split <;> simp

/-- C71 needs a positive batch size: with batch size 0 the loop never ends on a non-empty directory. -/
theorem C71_zero (l : Loader N) (h0 : l.batch_size = 0) (hne : l.current_index < l.file_list.length) (k : Nat) :
    (l.loop process k).2.1 = .running := by
  induction k generalizing l with
  | zero => rfl
  | succ k ih =>
    have e : l.next process = (.batch [], { l with batch_count := l.batch_count + 1 }) := by
      unfold Loader.next
      dsimp only
      rw [if_neg (by omega)]
      cases hd : l.file_list.drop l.current_index with
      | nil => rw [List.drop_eq_nil_iff] at hd; omega
      | cons f fs => simp [fillBatch, h0]
    unfold Loader.loop
    rw [e]
    exact ih _ h0 hne

/-- C72: if some file is fatal the program exits, whatever comes after; it yields full batches of the valid
games before the first fatal file and loses fewer than `batch_size` of them. -/
theorem C72_fatal (l : Loader N) (hn : 0 < l.batch_size) (hf : ∃ f ∈ l.file_list, fatal process f = true)
    {k : Nat} (hk : l.file_list.length < k) :
    ((l.reset).loop process k).2.1 = .exited ∧
    (∀ b ∈ ((l.reset).loop process k).1, b.length = l.batch_size) ∧
    ∃ lost, lost.length < l.batch_size ∧
      valid process (readable process l.file_list) = ((l.reset).loop process k).1.flatten ++ lost := by
  have h := Loader.loop_epoch (process := process) k l.reset hn hk
  have e : l.reset.file_list.drop l.reset.current_index = l.file_list := rfl
  rw [e] at h
  have hany : l.file_list.any (fatal process) = true := by
    rw [List.any_eq_true]
    exact hf
  obtain ⟨h1, ⟨lost, h2, h3, _⟩, _, _, h4⟩ := h
  rw [hany] at h1
  exact ⟨h1, h4 hany, lost, h3, h2⟩

end

/-- three files, the last two invalid, batch size 1 -/
example : ((Loader.init [1, 2, 3] 1).loop (fun f => if f = 1 then .ok f else .error .invalidGame) 5).1 = [[1], []] := by
  decide

/-- C82 does not hold: a directory whose last files are skipped gives a last batch without any game, for
every batch size. -/
theorem C82_no_empty_batch_violated (n : Nat) (hn : 0 < n) :
    ∃ (N : Type) (process : N → Except PyErr Nat) (listing : List N),
      (∀ f ∈ listing, fatal process f = false) ∧ valid process listing ≠ [] ∧
      [] ∈ ((Loader.init listing n).loop process (listing.length + 1)).1 := by
  refine ⟨Bool, fun b => if b then .ok 0 else .error .invalidGame, List.replicate n true ++ [false], ?_, ?_, ?_⟩
  · intro f hf
    cases f <;> simp [fatal]
  · obtain ⟨m, rfl⟩ := Nat.exists_eq_succ_of_ne_zero (by omega : n ≠ 0)
    simp [valid, List.replicate_succ, Except.toOption]
  · let process : Bool → Except PyErr Nat := fun b => if b then .ok 0 else .error .invalidGame
    have hfill : ∀ (m idx : Nat) (acc : List Nat), acc.length + m = n →
        fillBatch process n (List.replicate m true ++ [false]) idx acc = (idx + m, some (acc ++ List.replicate m 0)) := by
      intro m
      induction m with
      | zero =>
        intro idx acc h
        unfold fillBatch
        have : ¬ acc.length < n := by omega
        simp only [List.replicate_zero, List.nil_append, if_neg this, List.append_nil, Nat.add_zero]
      | succ m ih =>
        intro idx acc h
        show fillBatch process n (true :: (List.replicate m true ++ [false])) idx acc = _
        unfold fillBatch
        rw [if_pos (by omega)]
        show fillBatch process n (List.replicate m true ++ [false]) (idx + 1) (acc ++ [0]) = _
        rw [ih (idx + 1) (acc ++ [0]) (by simp; omega)]
        simp [List.replicate_succ]
        omega
    have h1 : (Loader.init (List.replicate n true ++ [false]) n).next process =
        (.batch (List.replicate n 0), ⟨List.replicate n true ++ [false], n, n, 1⟩) := by
      unfold Loader.next Loader.init
      have := hfill n 0 [] (by simp)
      simp only [List.drop_zero, List.length_append, List.length_replicate, List.length_singleton]
      rw [if_neg (by omega), this]
      simp
    have h2 : Loader.next process ⟨List.replicate n true ++ [false], n, n, 1⟩ =
        (.batch [], ⟨List.replicate n true ++ [false], n + 1, n, 2⟩) := by
      unfold Loader.next
      simp [fillBatch, hn, process]
    obtain ⟨m, rfl⟩ := Nat.exists_eq_succ_of_ne_zero (by omega : n ≠ 0)
    have hlen : (List.replicate (m + 1) true ++ [false]).length + 1 = (m + 1) + 1 + 1 := by simp
    show [] ∈ (Loader.loop process ((List.replicate (m + 1) true ++ [false]).length + 1) _).1
    rw [hlen, Loader.loop, h1]
    dsimp only
    rw [Loader.loop, h2]
    simp

end MJ
