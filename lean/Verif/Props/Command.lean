import Verif.Model.Command
import Verif.Props.Checkpoints
import Mathlib.Data.List.Forall2
import Mathlib.Data.List.GetD
import Mathlib.Tactic.Conv
/-!
C145: the program's arguments choose one network, and never one that does not exist.
C146: no game is both trained on and validated on, and the years are trained on evenly.
-/
namespace MJ

open MJ.Data (Text)
open MJ.Command

/-! ### Arguments -/

/-- C145: the names the program accepts are exactly those for which `train` makes a network (so that its
`NotImplementedError` cannot be reached), and the batch sizes are those that the properties about batches, validation
and checkpoints (C83, C84, C73) are about. -/
theorem C145_names :
    (∀ name : Text, name ∈ accepted ↔ ∃ net, chooseNet name = .ok net) ∧
    (∀ name : Text, name ∉ accepted → chooseNet name = .error .notImplemented) ∧
    (∀ (name : Text) (net : Net), chooseNet name = .ok net → (name, net.batchSize) ∈ trainable) ∧
    (∀ m ∈ trainable, ∃ net, chooseNet m.1 = .ok net ∧ net.batchSize = m.2) := by
  have h1 : ∀ name : Text, name ∈ accepted → ∃ net, chooseNet name = .ok net := by
    intro name h
    have : ∀ n ∈ accepted, (chooseNet n).isOk = true := by decide +kernel
    have := this name h
    cases hc : chooseNet name with
    | error e => rw [hc] at this; exact absurd this (by simp [Except.isOk, Except.toBool])
    | ok net => exact ⟨net, rfl⟩
  have h2 : ∀ name : Text, name ∉ accepted → chooseNet name = .error .notImplemented := by
    intro name h
    simp only [accepted, List.mem_cons, List.not_mem_nil, or_false, not_or] at h
    obtain ⟨a1, a2, a3, a4, a5, a6, a7, a8, a9⟩ := h
    unfold chooseNet
    rw [if_neg a1, if_neg a2, if_neg a3, if_neg a4, if_neg a5, if_neg a6, if_neg a7, if_neg a8, if_neg a9]
  have h3 : ∀ name : Text, (∃ net, chooseNet name = .ok net) → name ∈ accepted := by
    rintro name ⟨net, h⟩
    refine Classical.byContradiction fun hn => ?_
    rw [h2 name hn] at h
    exact absurd h (by simp)
  refine ⟨fun name => ⟨h1 name, h3 name⟩, h2, ?_, ?_⟩
  · intro name net h
    have hm := h3 name ⟨net, h⟩
    have : ∀ n ∈ accepted, ∀ net, chooseNet n = .ok net → (n, net.batchSize) ∈ trainable := by
      intro n hn net h
      have key : ∀ n ∈ accepted, (match chooseNet n with
        | .ok net => decide ((n, net.batchSize) ∈ trainable)
        | .error _ => true) = true := by decide +kernel
      have := key n hn
      rw [h] at this
      exact of_decide_eq_true this
    exact this name hm net h
  · intro m hm
    have key : ∀ m ∈ trainable, (match chooseNet m.1 with
        | .ok net => decide (net.batchSize = m.2)
        | .error _ => false) = true := by decide +kernel
    have := key m hm
    cases hc : chooseNet m.1 with
    | error e => rw [hc] at this; exact absurd this (by simp [Except.isOk, Except.toBool])
    | ok net => rw [hc] at this; exact ⟨net, rfl, of_decide_eq_true this⟩

/-- C145: different names stand for different networks (another class or another number of layers), so that the
checkpoints kept apart by the names (C73) are not of the same network. -/
theorem C145_distinct {a b : Text} {m n : Net} (ha : chooseNet a = .ok m) (hb : chooseNet b = .ok n)
    (h : (m.cls, m.layers) = (n.cls, n.layers)) : a = b := by
  have ma := (C145_names.1 a).mpr ⟨m, ha⟩
  have mb := (C145_names.1 b).mpr ⟨n, hb⟩
  have key : ∀ a ∈ accepted, ∀ b ∈ accepted, (match chooseNet a, chooseNet b with
      | .ok m, .ok n => decide ((m.cls, m.layers) = (n.cls, n.layers) → a = b)
      | _, _ => true) = true := by decide +kernel
  have := key a ma b mb
  rw [ha, hb] at this
  exact of_decide_eq_true this h

/-- C145: a name that ends in a digit behind an underscore stands for a network with that many layers. -/
theorem C145_layers {name : Text} {net : Net} (h : chooseNet name = .ok net) (s : Text) (d : Nat) (hd : d < 10)
    (hn : name = s ++ ['_', Nat.digitChar d]) : net.layers = some d := by
  have hm := (C145_names.1 name).mpr ⟨net, h⟩
  have key : ∀ n ∈ accepted, ∀ d < 10, (match chooseNet n with
      | .ok net => n.drop (n.length - 2) != ['_', Nat.digitChar d] || decide (net.layers = some d)
      | .error _ => true) = true := by decide +kernel
  have := key name hm d hd
  rw [h, hn] at this
  simpa using this

/-- C145: the class of the network is the one its name begins with, and only the classes that can have several layers
are given a number of layers, at least one. -/
theorem C145_class {name : Text} {net : Net} (h : chooseNet name = .ok net) :
    net.cls = (if "transformer_conv_ordered".toList.isPrefixOf name then .convOrdered
      else if "transformer_conv_large".toList.isPrefixOf name then .convLarge
      else if "transformer_conv".toList.isPrefixOf name then .conv else .basic) ∧
    (net.layers = none ↔ net.cls = .basic ∨ net.cls = .conv) ∧ net.layers ≠ some 0 := by
  have hm := (C145_names.1 name).mpr ⟨net, h⟩
  have key : ∀ n ∈ accepted, (match chooseNet n with
      | .ok net => decide (net.cls = (if "transformer_conv_ordered".toList.isPrefixOf n then .convOrdered
          else if "transformer_conv_large".toList.isPrefixOf n then .convLarge
          else if "transformer_conv".toList.isPrefixOf n then .conv else .basic) ∧
        (net.layers = none ↔ net.cls = .basic ∨ net.cls = .conv) ∧ net.layers ≠ some 0)
      | .error _ => true) = true := by decide +kernel
  have := key name hm
  rw [h] at this
  exact of_decide_eq_true this

/-- the network with five layers -/
example : chooseNet "transformer_conv_ordered_large_5".toList = .ok ⟨.convOrdered, some 5, 1⟩ := by decide +kernel

theorem Command.mapM_ok {α β ε : Type} {f : α → Except ε β} :
    ∀ {l : List α} {r : List β}, l.mapM f = .ok r ↔ List.Forall₂ (fun a b => f a = .ok b) l r := by
  intro l
  induction l with
  | nil =>
    intro r
    rw [List.mapM_nil]
    constructor
    · intro h; cases h; exact .nil
    · intro h; cases h; rfl
  | cons a l ih =>
    intro r
    rw [List.mapM_cons]
    constructor
    · intro h
      cases hf : f a with
      | error e => rw [hf] at h; cases h
      | ok b =>
        rw [hf] at h
        cases hl : l.mapM f with
        | error e =>
          replace h : (l.mapM f >>= fun bs => pure (b :: bs)) = Except.ok r := h
          rw [hl] at h; cases h
        | ok bs =>
          replace h : (l.mapM f >>= fun bs => pure (b :: bs)) = Except.ok r := h
          rw [hl] at h; cases h
          exact .cons hf (ih.mp hl)
    · intro h
      cases h with
      | cons h1 h2 =>
        rw [h1, ih.mpr h2]
        rfl

/-- the loader of a directory that is listed -/
theorem Command.loader_ok {listdir : Text → Option (List Text)} {dir : Text} {ps : List Text} :
    loader listdir dir = .ok ps ↔ ∃ names, listdir dir = some names ∧ ps = names.map (dir ++ ·) := by
  unfold loader
  cases h : listdir dir with
  | none => simp
  | some names => simp [eq_comm]

/-- what the loaders hold: the files of the training directories, one list for each, and those of the validation
directory -/
theorem Command.loaders_ok {listdir : Text → Option (List Text)} {r : List (List Text) × List Text} :
    loaders listdir = .ok r ↔
      List.Forall₂ (fun d ps => ∃ names, listdir d = some names ∧ ps = names.map (d ++ ·)) trainDirs r.1 ∧
      ∃ names, listdir valDir = some names ∧ r.2 = names.map (valDir ++ ·) := by
  unfold loaders
  have e1 : ∀ {t : List (List Text)}, trainDirs.mapM (loader listdir) = .ok t ↔
      List.Forall₂ (fun d ps => ∃ names, listdir d = some names ∧ ps = names.map (d ++ ·)) trainDirs t := by
    intro t
    rw [Command.mapM_ok]
    simp only [Command.loader_ok]
  constructor
  · intro h
    cases ht : trainDirs.mapM (loader listdir) with
    | error e => rw [ht] at h; cases h
    | ok t =>
      rw [ht] at h
      replace h : (loader listdir valDir >>= fun val => pure (t, val)) = Except.ok r := h
      cases hv : loader listdir valDir with
      | error e => rw [hv] at h; cases h
      | ok v =>
        rw [hv] at h
        cases h
        exact ⟨e1.mp ht, Command.loader_ok.mp hv⟩
  · rintro ⟨h1, h2⟩
    rw [e1.mpr h1, Command.loader_ok.mpr h2]
    rfl

/-- C145: the program gets as far as training exactly if it has two arguments, an accepted name and a number, and
all nine directories exist — also those which the iterations asked for do not use. -/
theorem C145_prepared (pyInt : Text → Option Int) (listdir : Text → Option (List Text)) (argv : List Text) :
    (∃ j, prepare pyInt listdir argv = .ok j) ↔
      (∃ prog name n, argv = [prog, name, n] ∧ name ∈ accepted ∧ (pyInt n).isSome) ∧
      (∀ d ∈ trainDirs, (listdir d).isSome) ∧ (listdir valDir).isSome := by
  constructor
  · rintro ⟨j, h⟩
    unfold prepare at h
    split at h
    · rename_i prog name n
      split at h
      · rename_i hm
        cases hn : pyInt n with
        | none => rw [hn] at h; cases h
        | some k =>
          rw [hn] at h
          obtain ⟨net, hc⟩ := (C145_names.1 name).mp hm
          simp only [hc] at h
          cases hl : loaders listdir with
          | error e => rw [hl] at h; cases h
          | ok r =>
            obtain ⟨h1, names, h2, -⟩ := Command.loaders_ok.mp hl
            refine ⟨⟨prog, name, n, rfl, hm, by rw [hn]; rfl⟩, ?_, by rw [h2]; rfl⟩
            intro d hd
            obtain ⟨i, hi, rfl⟩ := List.mem_iff_getElem.mp hd
            obtain ⟨e, hf⟩ := List.forall₂_iff_get.mp h1
            obtain ⟨names, e, -⟩ := hf i hi (e ▸ hi)
            rw [List.get_eq_getElem] at e
            rw [e]; rfl
      · cases h
    · cases h
  · rintro ⟨⟨prog, name, n, rfl, hm, hn⟩, ht, hv⟩
    obtain ⟨k, hk⟩ := Option.isSome_iff_exists.mp hn
    obtain ⟨net, hc⟩ := (C145_names.1 name).mp hm
    obtain ⟨vs, hvs⟩ := Option.isSome_iff_exists.mp hv
    have hl : loaders listdir = .ok (trainDirs.map (fun d => ((listdir d).getD []).map (d ++ ·)),
        vs.map (valDir ++ ·)) := by
      rw [Command.loaders_ok]
      refine ⟨?_, vs, hvs, rfl⟩
      rw [List.forall₂_map_right_iff, List.forall₂_same]
      intro d hd
      obtain ⟨ns, hns⟩ := Option.isSome_iff_exists.mp (ht d hd)
      exact ⟨ns, hns, by rw [hns]; rfl⟩
    refine ⟨⟨net, name, k.toNat, trainDirs.map (fun d => ((listdir d).getD []).map (d ++ ·)), vs.map (valDir ++ ·)⟩, ?_⟩
    unfold prepare
    simp only [if_pos hm, hk, hc, hl]
    rfl

/-- C145: what is prepared: the network of the name that the checkpoints are kept under, the number of iterations
(none if it is negative) and the loaders. -/
theorem C145_job {pyInt : Text → Option Int} {listdir : Text → Option (List Text)} {prog name n : Text} {j : Job}
    (h : prepare pyInt listdir [prog, name, n] = .ok j) :
    chooseNet name = .ok j.net ∧ j.name = name ∧ (∃ k, pyInt n = some k ∧ j.iters = k.toNat) ∧
      loaders listdir = .ok (j.train, j.val) := by
  unfold prepare at h
  simp only at h
  split at h
  · rename_i hm
    cases hn : pyInt n with
    | none => rw [hn] at h; cases h
    | some k =>
      rw [hn] at h
      obtain ⟨net, hc⟩ := (C145_names.1 name).mp hm
      simp only [hc] at h
      cases hl : loaders listdir with
      | error e => rw [hl] at h; cases h
      | ok r =>
        rw [hl] at h
        cases h
        exact ⟨hc, rfl, ⟨k, rfl, rfl⟩, rfl⟩
  · cases h

/-- non-vacuity: a call that is accepted, and one for each of the four errors -/
example :
    let int : Text → Option Int := fun s => if s = ['3'] then some 3 else none
    let all : Text → Option (List Text) := fun _ => some ["a".toList]
    let one : Text → Option (List Text) := fun d => if d = valDir then some ["a".toList] else none
    ((prepare int all ["p".toList, "transformer_conv_large".toList, ['3']]).toOption.map
        (fun j => (j.net, j.iters, j.train.length, j.filesOf 11))) =
      some (⟨.convLarge, some 2, 2⟩, 3, 8, ["data/processed/2015/a".toList]) ∧
    prepare int all ["p".toList, "transformer".toList] = .error .usage ∧
    prepare int all ["p".toList, "cnn".toList, ['3']] = .error .unknownName ∧
    prepare int all ["p".toList, "transformer".toList, ['x']] = .error .notInteger ∧
    prepare int one ["p".toList, "transformer".toList, ['3']] = .error .noDirectory := by decide +kernel

/-! ### The files -/

/-- the year an iteration trains on -/
def Spec.yearOf (i : Nat) : Nat := 2012 + i % 8

/-- the directories written out -/
theorem Command.dirs_eq :
    trainDirs = ["data/processed/2012/".toList, "data/processed/2013/".toList, "data/processed/2014/".toList,
      "data/processed/2015/".toList, "data/processed/2016/".toList, "data/processed/2017/".toList,
      "data/processed/2018/".toList, "data/processed/2019/".toList] ∧
    valDir = yearDir 2021 := by decide +kernel

theorem Command.dir_length : ∀ d ∈ trainDirs, d.length = valDir.length ∧ d ≠ valDir := by decide +kernel

theorem Command.trainDirs_get (i : Nat) : trainDirs.getD (i % 8) [] = yearDir (Spec.yearOf i) := by
  have : ∀ k < 8, trainDirs.getD k [] = yearDir (2012 + k) := by decide +kernel
  exact this _ (Nat.mod_lt _ (by decide))

/-- C146: the files of iteration `i` are those of the directory of its year. -/
theorem C146_files {listdir : Text → Option (List Text)} {j : Job}
    (h : loaders listdir = .ok (j.train, j.val)) (i : Nat) :
    j.train.length = 8 ∧ ∃ names, listdir (yearDir (Spec.yearOf i)) = some names ∧
      j.filesOf i = names.map (yearDir (Spec.yearOf i) ++ ·) := by
  obtain ⟨h1, -⟩ := Command.loaders_ok.mp h
  obtain ⟨e, hf⟩ := List.forall₂_iff_get.mp h1
  have e8 : trainDirs.length = 8 := by decide +kernel
  have el : j.train.length = 8 := by rw [← e, e8]
  refine ⟨el, ?_⟩
  have hi : i % 8 < 8 := Nat.mod_lt _ (by decide)
  obtain ⟨names, a, b⟩ := hf (i % 8) (by rw [e8]; exact hi) (by show i % 8 < j.train.length; rw [el]; exact hi)
  have ed : trainDirs.get ⟨i % 8, by rw [e8]; exact hi⟩ = yearDir (Spec.yearOf i) := by
    rw [← Command.trainDirs_get, List.getD_eq_getElem _ _ (by rw [e8]; exact hi), List.get_eq_getElem]
  rw [ed] at a b
  refine ⟨names, a, ?_⟩
  unfold Job.filesOf
  rw [el, List.getD_eq_getElem _ _ (by rw [el]; exact hi)]
  exact b

/-- C146: no file is opened both for training and for validation, whatever the directories hold. -/
theorem C146_disjoint {listdir : Text → Option (List Text)} {j : Job}
    (h : loaders listdir = .ok (j.train, j.val)) (i : Nat) {p : Text} (hp : p ∈ j.filesOf i) : p ∉ j.val := by
  obtain ⟨-, names, -, e⟩ := C146_files h i
  obtain ⟨-, vs, -, ev⟩ := Command.loaders_ok.mp h
  replace ev : j.val = vs.map (valDir ++ ·) := ev
  rw [e] at hp
  rw [ev]
  intro hv
  obtain ⟨a, -, ha⟩ := List.mem_map.mp hp
  obtain ⟨b, -, hb⟩ := List.mem_map.mp hv
  have hm : yearDir (Spec.yearOf i) ∈ trainDirs := by
    rw [← Command.trainDirs_get, List.getD_eq_getElem _ _ (by
      have : trainDirs.length = 8 := by decide +kernel
      rw [this]; exact Nat.mod_lt _ (by decide))]
    exact List.getElem_mem _
  obtain ⟨hl, hne⟩ := Command.dir_length _ hm
  exact hne (List.append_inj_left (ha.trans hb.symm) hl)

/-- C146: two iterations open the same file only if they are of the same year; with 8 directories, only if their
numbers differ by a multiple of 8. -/
theorem C146_apart {listdir : Text → Option (List Text)} {j : Job}
    (h : loaders listdir = .ok (j.train, j.val)) {i k : Nat} {p : Text} (hi : p ∈ j.filesOf i)
    (hk : p ∈ j.filesOf k) : i % 8 = k % 8 := by
  obtain ⟨-, ns, -, e⟩ := C146_files h i
  obtain ⟨-, ms, -, e'⟩ := C146_files h k
  rw [e] at hi
  rw [e'] at hk
  obtain ⟨a, -, ha⟩ := List.mem_map.mp hi
  obtain ⟨b, -, hb⟩ := List.mem_map.mp hk
  have key : ∀ a < 8, ∀ b < 8, (yearDir (2012 + a)).length = (yearDir (2012 + b)).length ∧
      (yearDir (2012 + a) = yearDir (2012 + b) → a = b) := by decide +kernel
  obtain ⟨hl, hinj⟩ := key (i % 8) (Nat.mod_lt _ (by decide)) (k % 8) (Nat.mod_lt _ (by decide))
  exact hinj (List.append_inj_left (ha.trans hb.symm) hl)

/-- the names in a directory of games of one year begin with that year, as the ids of the games do
("2012010100gm-…") -/
def Spec.NamedByYear (listdir : Text → Option (List Text)) : Prop :=
  ∀ yr names, listdir (yearDir yr) = some names → ∀ n ∈ names, yearText yr <+: n

/-- C146: no game is both trained on and validated on, even as a copy under another directory, if the files are
named after the games (C139) and the directory of a year holds games of that year. -/
theorem C146_games {listdir : Text → Option (List Text)} {j : Job}
    (h : loaders listdir = .ok (j.train, j.val)) (hy : Spec.NamedByYear listdir) (i : Nat) {n m : Text}
    {names vs : List Text} (hn : listdir (yearDir (Spec.yearOf i)) = some names) (hv : listdir valDir = some vs)
    (hnm : n ∈ names) (hm : m ∈ vs) : n ≠ m ∧ yearDir (Spec.yearOf i) ++ n ∈ j.filesOf i ∧ valDir ++ m ∈ j.val := by
  refine ⟨?_, ?_, ?_⟩
  · rintro rfl
    have h1 := hy _ _ hn n hnm
    have h2 := hy 2021 vs (by rw [← Command.dirs_eq.2]; exact hv) n hm
    have key : ∀ k < 8, (yearText (2012 + k)).length = (yearText 2021).length ∧ yearText (2012 + k) ≠ yearText 2021 := by
      decide +kernel
    obtain ⟨hl, hne⟩ := key (i % 8) (Nat.mod_lt _ (by decide))
    obtain ⟨a, ha⟩ := h1
    obtain ⟨b, hb⟩ := h2
    exact hne (List.append_inj_left (ha.trans hb.symm) hl)
  · obtain ⟨-, ns, e1, e2⟩ := C146_files h i
    rw [hn] at e1
    cases e1
    rw [e2]
    exact List.mem_map_of_mem hnm
  · obtain ⟨-, ws, e1, e2⟩ := Command.loaders_ok.mp h
    rw [hv] at e1
    cases e1
    replace e2 : j.val = vs.map (valDir ++ ·) := e2
    rw [e2]
    exact List.mem_map_of_mem hm

/-- how many of the first `n` iterations are of the same year as iteration `y` -/
theorem Command.count_mod (n y : Nat) (hy : y < 8) :
    ((List.range n).filter (fun i => i % 8 = y)).length = (n + 7 - y) / 8 := by
  induction n with
  | zero => simp; omega
  | succ n ih =>
    rw [List.range_succ, List.filter_append, List.length_append, ih]
    by_cases h : n % 8 = y
    · rw [List.filter_cons_of_pos (by simpa using h)]
      simp only [List.filter_nil, List.length_cons, List.length_nil]
      omega
    · rw [List.filter_cons_of_neg (by simpa using h)]
      simp only [List.filter_nil, List.length_nil]
      omega

theorem Command.start_shard {log : List TrainEv} : ∀ {k : Nat}, StartsOk k log → ∀ {i shard : Nat},
    TrainEv.start i shard ∈ log → shard = i % 8 := by
  induction log with
  | nil => intro k _ i shard h; cases h
  | cons e log ih =>
    intro k hk i shard h
    cases e with
    | start i' s' =>
      rcases List.mem_cons.mp h with h | h
      · cases h; exact hk.2.1
      · exact ih hk.2.2 h
    | save i' =>
      rcases List.mem_cons.mp h with h | h
      · cases h
      · exact ih hk.2 h

/-- C146: over any history of runs of one network, however often they were interrupted and resumed, each iteration
begun uses the loader of its year, and of the `N` iterations completed exactly `⌊(N + 7 - y) / 8⌋` were of year
`2012 + y` — so that the numbers for any two years differ by at most one. -/
theorem C146_even {digit : Char → Option Nat} (hd : DigitsOk digit) {model : List Char} {log : List TrainEv}
    {files : List File} (h : Runs digit model log files) :
    (∀ i shard, TrainEv.start i shard ∈ log → trainDirs.getD shard [] = yearDir (Spec.yearOf i)) ∧
    (∀ y < 8, ((savesOf log).filter (fun i => Spec.yearOf i = 2012 + y)).length = ((savesOf log).length + 7 - y) / 8) ∧
    (∀ y < 8, ∀ z < 8, ((savesOf log).filter (fun i => Spec.yearOf i = 2012 + y)).length ≤
      ((savesOf log).filter (fun i => Spec.yearOf i = 2012 + z)).length + 1) := by
  obtain ⟨h1, h2, -⟩ := C74_resume hd h
  have hc : ∀ y < 8, ((savesOf log).filter (fun i => Spec.yearOf i = 2012 + y)).length =
      ((savesOf log).length + 7 - y) / 8 := by
    intro y hy
    have e : (fun i => decide (Spec.yearOf i = 2012 + y)) = (fun i => decide (i % 8 = y)) := by
      funext i
      exact decide_eq_decide.mpr ⟨fun h => Nat.add_left_cancel h, fun h => by rw [← h]; rfl⟩
    rw [e]
    conv_lhs => rw [h1]
    exact Command.count_mod _ _ hy
  refine ⟨?_, hc, ?_⟩
  · intro i shard hi
    rw [Command.start_shard h2 hi, Command.trainDirs_get]
  · intro y hy z hz
    rw [hc y hy, hc z hz]
    omega

/-- non-vacuity: directories named as asked for -/
example : Spec.NamedByYear (fun d =>
    if d = yearDir 2012 then some ["2012010100gm-00a9-0000-x.xml".toList]
    else if d = valDir then some ["2021010100gm-00a9-0000-x.xml".toList] else some []) := by
  intro yr names h n hn
  have inj : ∀ a b : Nat, yearDir a = yearDir b → yearText a = yearText b := by
    intro a b hab
    unfold yearDir at hab
    exact List.append_cancel_left (List.append_cancel_right hab)
  simp only at h
  split at h
  · rename_i e
    cases h
    rw [inj _ _ e, List.mem_singleton.mp hn]
    decide +kernel
  · split at h
    · rename_i _ e
      cases h
      rw [Command.dirs_eq.2] at e
      rw [inj _ _ e, List.mem_singleton.mp hn]
      decide +kernel
    · cases h; cases hn

end MJ
