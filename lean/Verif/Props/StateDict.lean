import Verif.Model.StateDict
import Verif.Spec.Coordinates
import Verif.Props.TableRows
import Verif.Props.Learning
import Verif.Proofs.InfluenceTokens
import Mathlib.Logic.Equiv.Fin.Basic
import Mathlib.Algebra.BigOperators.Fin
/-!
C167: a checkpoint fits only the network it was made for, and the number of parameters that is printed.
-/
namespace MJ
open Spec StateDict

/-! ### keys -/

theorem mem_under {p : Part} {d : Dict} {k : List Part} {s : List ℕ} : (k, s) ∈ under p d ↔ ∃ k', k = p :: k' ∧ (k', s) ∈ d := by
  simp only [under, List.mem_map, Prod.mk.injEq]
  constructor
  · rintro ⟨⟨k', s'⟩, h, rfl, rfl⟩; exact ⟨k', rfl, h⟩
  · rintro ⟨k', rfl, h⟩; exact ⟨(k', s), h, rfl, rfl⟩

theorem cons_mem_under {p q : Part} {d : Dict} {k : List Part} {s : List ℕ} : (q :: k, s) ∈ under p d ↔ q = p ∧ (k, s) ∈ d := by
  rw [mem_under]
  constructor
  · rintro ⟨k', h, hm⟩
    simp only [List.cons.injEq] at h
    obtain ⟨rfl, rfl⟩ := h
    exact ⟨rfl, hm⟩
  · rintro ⟨rfl, hm⟩
    exact ⟨k, rfl, hm⟩

theorem mem_numbered {n : ℕ} {d : Dict} {k : List Part} {s : List ℕ} :
    (k, s) ∈ numbered n d ↔ ∃ i < n, ∃ k', k = .index i :: k' ∧ (k', s) ∈ d := by
  simp only [numbered, List.mem_flatMap, List.mem_range, mem_under]

theorem cons_mem_numbered {n : ℕ} {d : Dict} {q : Part} {k : List Part} {s : List ℕ} :
    (q :: k, s) ∈ numbered n d ↔ ∃ i < n, q = .index i ∧ (k, s) ∈ d := by
  rw [mem_numbered]
  constructor
  · rintro ⟨i, hi, k', h, hm⟩
    simp only [List.cons.injEq] at h
    obtain ⟨rfl, rfl⟩ := h
    exact ⟨i, hi, rfl, hm⟩
  · rintro ⟨i, hi, rfl, hm⟩
    exact ⟨i, hi, k, rfl, hm⟩

/-- no key twice -/
def Spec.Keyed (d : Dict) : Prop := (d.map (·.1)).Nodup

theorem keyed_under {p : Part} {d : Dict} (h : Keyed d) : Keyed (under p d) := by
  unfold Keyed at *
  have e : (under p d).map (·.1) = (d.map (·.1)).map (fun k => p :: k) := by simp [under]
  rw [e]
  exact h.map (fun a b hab => by simpa using hab)

theorem mem_keys {d : Dict} {k : List Part} : k ∈ d.map (·.1) ↔ ∃ s, (k, s) ∈ d := by
  simp only [List.mem_map, Prod.exists, exists_and_right, exists_eq_right]

theorem keyed_append {a b : Dict} (ha : Keyed a) (hb : Keyed b) (h : ∀ k s s', (k, s) ∈ a → (k, s') ∈ b → False) : Keyed (a ++ b) := by
  unfold Keyed at *
  rw [List.map_append, List.nodup_append]
  refine ⟨ha, hb, ?_⟩
  rintro k hk k' hk' rfl
  obtain ⟨s, hs⟩ := mem_keys.1 hk
  obtain ⟨s', hs'⟩ := mem_keys.1 hk'
  exact h k s s' hs hs'

theorem keyed_numbered (n : ℕ) {d : Dict} (h : Keyed d) : Keyed (numbered n d) := by
  induction n with
  | zero => simp [Keyed, numbered]
  | succ n ih =>
    have e : numbered (n + 1) d = numbered n d ++ under (.index n) d := by simp [numbered, List.range_succ]
    rw [e]
    refine keyed_append ih (keyed_under h) ?_
    intro k s s' h1 h2
    obtain ⟨i, hi, k', rfl, _⟩ := mem_numbered.1 h1
    obtain ⟨he, _⟩ := cons_mem_under.1 h2
    simp only [Part.index.injEq] at he
    omega

/-- the first part of every key is one of these -/
def StartsIn (l : List Part) (d : Dict) : Prop := ∀ k s, (k, s) ∈ d → ∃ p ∈ l, ∃ k', k = p :: k'

theorem starts_under (p : Part) (d : Dict) : StartsIn [p] (under p d) := by
  intro k s h
  obtain ⟨k', rfl, _⟩ := mem_under.1 h
  exact ⟨p, by simp, k', rfl⟩

theorem StartsIn.append {l m : List Part} {a b : Dict} (ha : StartsIn l a) (hb : StartsIn m b) : StartsIn (l ++ m) (a ++ b) := by
  intro k s h
  rcases List.mem_append.1 h with h | h
  · obtain ⟨p, hp, r⟩ := ha k s h; exact ⟨p, by simp [hp], r⟩
  · obtain ⟨p, hp, r⟩ := hb k s h; exact ⟨p, by simp [hp], r⟩

/-- one more attribute of another name -/
theorem keyed_attr {a : Dict} {l : List Part} (ha : Keyed a ∧ StartsIn l a) (p : Part) {d : Dict} (hd : Keyed d) (hp : p ∉ l) :
    Keyed (a ++ under p d) ∧ StartsIn (l ++ [p]) (a ++ under p d) := by
  refine ⟨keyed_append ha.1 (keyed_under hd) ?_, ha.2.append (starts_under p d)⟩
  intro k s s' h1 h2
  obtain ⟨q, hq, k', rfl⟩ := ha.2 k s h1
  obtain ⟨rfl, _⟩ := cons_mem_under.1 h2
  exact hp hq

theorem keyed_first (p : Part) {d : Dict} (hd : Keyed d) : Keyed (under p d) ∧ StartsIn [p] (under p d) :=
  ⟨keyed_under hd, starts_under p d⟩

theorem keyed_linear (m n : ℕ) : Keyed (linear m n) := by simp [Keyed, linear]
theorem keyed_norm (n : ℕ) : Keyed (layerNorm n) := by simp [Keyed, layerNorm]
theorem keyed_embedding (n d : ℕ) : Keyed (embedding n d) := by simp [Keyed, embedding]

theorem keyed_head : Keyed head :=
  (keyed_attr (keyed_attr (keyed_first _ (keyed_linear _ _)) _ (keyed_linear _ _) (by decide)) _ (keyed_linear _ _) (by decide)).1

theorem keyed_attention : Keyed attention :=
  (keyed_attr (keyed_first _ (keyed_numbered 8 keyed_head)) _ (keyed_linear _ _) (by decide)).1

theorem keyed_feed : Keyed feedForward :=
  keyed_under (keyed_attr (keyed_first _ (keyed_linear _ _)) _ (keyed_linear _ _) (by decide)).1

theorem keyed_encoderBlock : Keyed encoderBlock :=
  (keyed_attr (keyed_attr (keyed_attr (keyed_first _ keyed_attention) _ keyed_feed (by decide)) _ (keyed_norm _) (by decide))
    _ (keyed_norm _) (by decide)).1

theorem keyed_decoderBlock : Keyed decoderBlock :=
  (keyed_attr (keyed_attr (keyed_attr (keyed_attr (keyed_attr (keyed_first _ keyed_attention) _ keyed_attention (by decide))
    _ keyed_feed (by decide)) _ (keyed_norm _) (by decide)) _ (keyed_norm _) (by decide)) _ (keyed_norm _) (by decide)).1

theorem keyed_stateNet (v : Variant) : Keyed (stateNet v) := by
  have hc1 : ∀ c o k, Keyed (conv1d c o k) := fun _ _ _ => by simp [Keyed, conv1d]
  have hc2 : ∀ c o k l, Keyed (conv2d c o k l) := fun _ _ _ _ => by simp [Keyed, conv2d]
  cases v
  · exact (keyed_attr (keyed_attr (keyed_attr (keyed_attr (keyed_first _ (hc1 _ _ _)) _ (hc1 _ _ _) (by decide)) _
      (keyed_linear _ _) (by decide)) _ (keyed_linear _ _) (by decide)) _ (keyed_linear _ _) (by decide)).1
  · exact (keyed_attr (keyed_attr (keyed_attr (keyed_attr (keyed_first _ (hc2 _ _ _ _)) _ (hc2 _ _ _ _) (by decide)) _
      (keyed_linear _ _) (by decide)) _ (keyed_linear _ _) (by decide)) _ (keyed_linear _ _) (by decide)).1
  · exact (keyed_attr (keyed_attr (keyed_attr (keyed_attr (keyed_first _ (hc2 _ _ _ _)) _ (hc2 _ _ _ _) (by decide)) _
      (keyed_linear _ _) (by decide)) _ (keyed_linear _ _) (by decide)) _ (keyed_linear _ _) (by decide)).1

/-- **C167.** No key is used twice. -/
theorem C167_keys (v : Variant) (n : ℕ) : Keyed (model v n) := by
  have he : Keyed (encoder v n) :=
    (keyed_attr (keyed_attr (keyed_attr (keyed_attr (keyed_attr (keyed_first _ (keyed_embedding _ _)) _ (keyed_embedding _ _) (by decide))
      _ (keyed_embedding _ _) (by decide)) _ (keyed_embedding _ _) (by decide)) _ (keyed_embedding _ _) (by decide))
      _ (keyed_numbered n keyed_encoderBlock) (by decide)).1
  have hd : Keyed (decoder v n) :=
    (keyed_attr (keyed_attr (keyed_attr (keyed_attr (keyed_attr (keyed_first _ (keyed_stateNet v)) _
      (keyed_numbered n keyed_decoderBlock) (by decide)) _ (keyed_norm _) (by decide)) _ (keyed_linear _ _) (by decide))
      _ (keyed_linear _ _) (by decide)) _ (keyed_linear _ _) (by decide)).1
  exact (keyed_attr (keyed_first _ he) _ hd (by decide)).1

/-! ### loading -/

theorem find_mem {d : Dict} (hd : Keyed d) {k : List Part} {s : List ℕ} : find d k = some s ↔ (k, s) ∈ d := by
  induction d with
  | nil => simp [find]
  | cons e d ih =>
    obtain ⟨k0, s0⟩ := e
    have hd' : Keyed d := (List.nodup_cons.1 hd).2
    have hk : k0 ∉ d.map (·.1) := (List.nodup_cons.1 hd).1
    have ih := ih hd'
    simp only [find, List.find?_cons] at ih ⊢
    by_cases h : k0 = k
    · subst h
      simp only [beq_self_eq_true, Option.map_some, Option.some.injEq, List.mem_cons, Prod.mk.injEq, true_and]
      constructor
      · intro h; exact .inl h.symm
      · rintro (h | h)
        · exact h.symm
        · exact absurd (mem_keys.2 ⟨s, h⟩) hk
    · have hb : (k0 == k) = false := by simpa using h
      simp only [hb, List.mem_cons, Prod.mk.injEq, Ne.symm h, false_and, false_or]
      exact ih

/-- loading succeeds exactly if both have the same keys with the same shapes -/
theorem load_iff {own saved : Dict} (h1 : Keyed own) (h2 : Keyed saved) :
    loadStateDict own saved = .ok () ↔ ∀ k s, (k, s) ∈ own ↔ (k, s) ∈ saved := by
  unfold loadStateDict
  have e1 : (own.all fun e => find saved e.1 == some e.2) = true ↔ ∀ k s, (k, s) ∈ own → (k, s) ∈ saved := by
    simp only [List.all_eq_true, beq_iff_eq, find_mem h2, Prod.forall]
  have e2 : (saved.all fun e => (find own e.1).isSome) = true ↔ ∀ k s, (k, s) ∈ saved → ∃ s', (k, s') ∈ own := by
    simp only [List.all_eq_true, Option.isSome_iff_exists, find_mem h1, Prod.forall]
  constructor
  · intro h
    split at h
    · rename_i hc
      rw [Bool.and_eq_true, e1, e2] at hc
      intro k s
      refine ⟨hc.1 k s, fun hs => ?_⟩
      obtain ⟨s', hs'⟩ := hc.2 k s hs
      have := (find_mem h2).2 (hc.1 k s' hs')
      rw [(find_mem h2).2 hs] at this
      simp only [Option.some.injEq] at this
      exact this ▸ hs'
    · simp at h
  · intro h
    rw [if_pos]
    rw [Bool.and_eq_true, e1, e2]
    exact ⟨fun k s => (h k s).1, fun k s hs => ⟨s, (h k s).2 hs⟩⟩

/-- the layers of a model can be read from its keys -/
theorem layer_key (v : Variant) (n i : ℕ) :
    ([.name "encoder", .name "blocks", .index i, .name "ln1", .name "bias"], [64]) ∈ model v n ↔ i < n := by
  have h1 : (([.name "ln1", .name "bias"], [64]) : List Part × List ℕ) ∈ encoderBlock := by decide
  simp only [model, List.mem_append, cons_mem_under, encoder, cons_mem_numbered, Part.name.injEq, Part.index.injEq]
  simp [h1]

theorem conv_key (v : Variant) (n : ℕ) (s : List ℕ) :
    ([.name "decoder", .name "state_net", .name "conv2d_x1_1", .name "weight"], s) ∈ model v n ↔
      match v with | .basic => False | .conv => s = [8, 3, 3, 3] | .ordered => s = [8, 6, 3, 3] := by
  cases v <;>
    simp [model, List.mem_append, cons_mem_under, decoder, stateNet, convolutions, conv1d, conv2d]

/-- **C167.** A checkpoint can be loaded into a network exactly if it was saved by a network with the same layers, of the same
kind. -/
theorem C167_load (v w : Variant) (n m : ℕ) : loadStateDict (model v n) (model w m) = .ok () ↔ v = w ∧ n = m := by
  rw [load_iff (C167_keys v n) (C167_keys w m)]
  constructor
  · intro h
    constructor
    · have hk := fun s => h [.name "decoder", .name "state_net", .name "conv2d_x1_1", .name "weight"] s
      simp only [conv_key] at hk
      cases v <;> cases w <;> first | rfl | skip
      · exact ((hk [8, 3, 3, 3]).2 rfl).elim
      · exact ((hk [8, 6, 3, 3]).2 rfl).elim
      · exact ((hk [8, 3, 3, 3]).1 rfl).elim
      · exact absurd ((hk [8, 3, 3, 3]).1 rfl) (by decide)
      · exact ((hk [8, 6, 3, 3]).1 rfl).elim
      · exact absurd ((hk [8, 6, 3, 3]).1 rfl) (by decide)
    · have hk : ∀ i, i < n ↔ i < m := fun i => by
        rw [← layer_key v n i, ← layer_key w m i]
        exact h _ _
      have a := hk n
      have b := hk m
      omega
  · rintro ⟨rfl, rfl⟩ k s
    exact Iff.rfl

/-- **C167.** Every other checkpoint is rejected with RuntimeError. -/
theorem C167_rejected (v w : Variant) (n m : ℕ) (h : ¬ (v = w ∧ n = m)) : loadStateDict (model v n) (model w m) = .error .runtime := by
  have h1 : ¬ loadStateDict (model v n) (model w m) = .ok () := fun h' => h ((C167_load v w n m).1 h')
  unfold loadStateDict at *
  split at h1
  · exact absurd rfl h1
  · rename_i hc
    rw [if_neg hc]

/-- kind and number of layers of the network of a training name -/
def kindOf (n : Command.Net) : Variant × ℕ :=
  (match n.cls with | .basic => .basic | .conv => .conv | .convLarge => .conv | .convOrdered => .ordered, n.layers.getD 1)

theorem ofNet_model (n : Command.Net) : ofNet n = model (kindOf n).1 (kindOf n).2 := by
  unfold ofNet kindOf
  split <;> rename_i h <;> simp only [h]

/-- **C167.** The nine networks that can be trained do not accept each other's checkpoints. -/
theorem C167_names {a b : Data.Text} {x y : Command.Net} (ha : Command.chooseNet a = .ok x) (hb : Command.chooseNet b = .ok y) :
    loadStateDict (ofNet x) (ofNet y) = .ok () ↔ a = b := by
  rw [ofNet_model, ofNet_model, C167_load]
  have key : ∀ {a x}, Command.chooseNet a = .ok x →
      (a, kindOf x) ∈ ([("transformer".toList, .basic, 1), ("transformer_conv".toList, .conv, 1), ("transformer_conv_large".toList, .conv, 2),
        ("transformer_conv_large_3".toList, .conv, 3), ("transformer_conv_ordered".toList, .ordered, 1),
        ("transformer_conv_ordered_large_2".toList, .ordered, 2), ("transformer_conv_ordered_large_3".toList, .ordered, 3),
        ("transformer_conv_ordered_large_4".toList, .ordered, 4), ("transformer_conv_ordered_large_5".toList, .ordered, 5)] :
        List (Data.Text × Variant × ℕ)) := by
    intro a x h
    unfold Command.chooseNet at h
    split at h
    · rename_i hn; cases h; subst hn; decide
    split at h
    · rename_i hn; cases h; subst hn; decide
    split at h
    · rename_i hn; cases h; subst hn; decide
    split at h
    · rename_i hn; cases h; subst hn; decide
    split at h
    · rename_i hn; cases h; subst hn; decide
    split at h
    · rename_i hn; cases h; subst hn; decide
    split at h
    · rename_i hn; cases h; subst hn; decide
    split at h
    · rename_i hn; cases h; subst hn; decide
    split at h
    · rename_i hn; cases h; subst hn; decide
    · cases h
  have h1 := key ha
  have h2 := key hb
  generalize kindOf x = k at *
  generalize kindOf y = l at *
  obtain ⟨k1, k2⟩ := k
  obtain ⟨l1, l2⟩ := l
  constructor
  · rintro ⟨e1, e2⟩
    dsimp only at e1 e2
    subst e1 e2
    simp only [List.mem_cons, Prod.mk.injEq, List.not_mem_nil, or_false] at h1 h2
    rcases h1 with ⟨r1, r2, r3⟩ | ⟨r1, r2, r3⟩ | ⟨r1, r2, r3⟩ | ⟨r1, r2, r3⟩ | ⟨r1, r2, r3⟩ | ⟨r1, r2, r3⟩ | ⟨r1, r2, r3⟩ | ⟨r1, r2, r3⟩ | ⟨r1, r2, r3⟩ <;>
      (subst r2 r3; simp at h2; rw [r1]; simpa using h2.symm)
  · rintro rfl
    simp only [List.mem_cons, Prod.mk.injEq, List.not_mem_nil, or_false] at h1 h2
    rcases h1 with ⟨r1, r2, r3⟩ | ⟨r1, r2, r3⟩ | ⟨r1, r2, r3⟩ | ⟨r1, r2, r3⟩ | ⟨r1, r2, r3⟩ | ⟨r1, r2, r3⟩ | ⟨r1, r2, r3⟩ | ⟨r1, r2, r3⟩ | ⟨r1, r2, r3⟩ <;>
      (subst r1 r2 r3; simp at h2; simp [h2])

/-! ### numbers of parameters -/

theorem numel_append (a b : Dict) : numel (a ++ b) = numel a + numel b := by simp [numel]
theorem numel_under (p : Part) (d : Dict) : numel (under p d) = numel d := by simp [numel, under, Function.comp_def]
theorem numel_numbered (n : ℕ) (d : Dict) : numel (numbered n d) = n * numel d := by
  induction n with
  | zero => simp [numel, numbered]
  | succ n ih =>
    have e : numbered (n + 1) d = numbered n d ++ under (.index n) d := by simp [numbered, List.range_succ]
    rw [e, numel_append, numel_under, ih, Nat.succ_mul]
theorem numel_linear (m n : ℕ) : numel (linear m n) = n * m + n := by simp [numel, linear]
theorem numel_norm (n : ℕ) : numel (layerNorm n) = n + n := by simp [numel, layerNorm]
theorem numel_embedding (n d : ℕ) : numel (embedding n d) = n * d := by simp [numel, embedding]

/-- what is there for every number of layers -/
def baseSize : Variant → ℕ
  | .basic => 90150
  | .conv => 149678
  | .ordered => 254734

/-- **C167.** The number of parameters: 116736 for each layer, and what the kind of network has besides. -/
theorem C167_numbers (v : Variant) (n : ℕ) : numel (model v n) = baseSize v + n * 116736 := by
  have e1 : numel encoderBlock = 49984 := by decide +kernel
  have e2 : numel decoderBlock = 66752 := by decide +kernel
  cases v <;>
    simp only [model, encoder, decoder, stateNet, convolutions, numel_append, numel_under, numel_numbered, numel_linear, numel_norm,
      numel_embedding, e1, e2, baseSize, flatSize] <;>
    simp only [numel, conv1d, conv2d, List.map_cons, List.map_nil, List.sum_cons, List.sum_nil, List.prod_cons, List.prod_nil] <;> omega

/-- **C167.** Running the file of the basic network prints 0.206886, that of the convolutional one 0.266414. -/
theorem C167_printed_partial : runFile .basic = .ok 206886 ∧ runFile .conv = .ok 266414 := by
  have h1 := C167_numbers .basic 1
  have h2 := C167_numbers .conv 1
  constructor
  · show Except.ok (numel (model .basic 1)) = _
    rw [h1]; rfl
  · show Except.ok (numel (model .conv 1)) = _
    rw [h2]; rfl

/-- **C167.** The files of the other two networks fail: one calls a class of another file, the other leaves out the number of
layers. -/
theorem C167_printed_violated : runFile .convLarge = .error .nameError ∧ runFile .convOrdered = .error .typeError := by
  constructor <;> decide

/-! ### the numbers are those the network computes with -/

/-- as many as -/
def Spec.Counts (α : Type) (n : ℕ) : Prop := Nonempty (α ≃ Fin n)

theorem Spec.Counts.sum {α β : Type} {m n : ℕ} (ha : Counts α m) (hb : Counts β n) : Counts (α ⊕ β) (m + n) := by
  obtain ⟨e⟩ := ha
  obtain ⟨f⟩ := hb
  exact ⟨(Equiv.sumCongr e f).trans finSumFinEquiv⟩

theorem Spec.Counts.prod {α β : Type} {m n : ℕ} (ha : Counts α m) (hb : Counts β n) : Counts (α × β) (m * n) := by
  obtain ⟨e⟩ := ha
  obtain ⟨f⟩ := hb
  exact ⟨(Equiv.prodCongr e f).trans finProdFinEquiv⟩

theorem Spec.Counts.fin (n : ℕ) : Counts (Fin n) n := ⟨Equiv.refl _⟩

theorem Spec.Counts.of {α β : Type} {n : ℕ} (hb : Counts β n) (e : α ≃ β) : Counts α n := by
  obtain ⟨f⟩ := hb
  exact ⟨e.trans f⟩

theorem Spec.Counts.card {α : Type} {n : ℕ} (h : Counts α n) : Nat.card α = n := by
  obtain ⟨e⟩ := h
  rw [Nat.card_congr e, Nat.card_fin]

theorem counts_lin (m n : ℕ) : Counts (LinCoord m n) (numel (linear m n)) := by
  rw [numel_linear]
  exact ((Counts.fin n).prod (.fin m)).sum (.fin n) |>.of
    ⟨fun | .weight o i => .inl (o, i) | .bias o => .inr o, fun | .inl (o, i) => .weight o i | .inr o => .bias o,
      fun c => by cases c <;> rfl, fun c => by rcases c with ⟨_, _⟩ | _ <;> rfl⟩

theorem counts_norm (n : ℕ) : Counts (NormCoord n) (numel (layerNorm n)) := by
  rw [numel_norm]
  exact (Counts.fin n).sum (.fin n) |>.of
    ⟨fun | .weight i => .inl i | .bias i => .inr i, fun | .inl i => .weight i | .inr i => .bias i,
      fun c => by cases c <;> rfl, fun c => by rcases c with _ | _ <;> rfl⟩

theorem counts_conv1 (c o : ℕ) : Counts (Conv1Coord c o) (numel (conv1d c o 3)) := by
  have e : numel (conv1d c o 3) = o * (c * 3) + o := by simp [numel, conv1d]
  rw [e]
  exact ((Counts.fin o).prod ((Counts.fin c).prod (.fin 3))).sum (.fin o) |>.of
    ⟨fun | .weight m i k => .inl (m, i, k) | .bias m => .inr m, fun | .inl (m, i, k) => .weight m i k | .inr m => .bias m,
      fun c => by cases c <;> rfl, fun c => by rcases c with ⟨_, _, _⟩ | _ <;> rfl⟩

theorem counts_conv2 (c o : ℕ) : Counts (Conv2Coord c o) (numel (conv2d c o 3 3)) := by
  have e : numel (conv2d c o 3 3) = o * (c * (3 * 3)) + o := by simp [numel, conv2d]
  rw [e]
  exact ((Counts.fin o).prod ((Counts.fin c).prod ((Counts.fin 3).prod (.fin 3)))).sum (.fin o) |>.of
    ⟨fun | .weight m i k l => .inl (m, i, k, l) | .bias m => .inr m, fun | .inl (m, i, k, l) => .weight m i k l | .inr m => .bias m,
      fun c => by cases c <;> rfl, fun c => by rcases c with ⟨_, _, _, _⟩ | _ <;> rfl⟩

theorem counts_head : Counts HeadCoord (numel head) := by
  simp only [head, numel_append, numel_under]
  exact ((counts_lin 64 8).sum (counts_lin 64 8)).sum (counts_lin 64 8) |>.of
    ⟨fun | .key c => .inl (.inl c) | .query c => .inl (.inr c) | .value c => .inr c,
      fun | .inl (.inl c) => .key c | .inl (.inr c) => .query c | .inr c => .value c,
      fun c => by cases c <;> rfl, fun c => by rcases c with (_ | _) | _ <;> rfl⟩

theorem counts_attention : Counts AttnCoord (numel attention) := by
  simp only [attention, numel_append, numel_under, numel_numbered]
  exact ((Counts.fin 8).prod counts_head).sum (counts_lin (8 * 8) 64) |>.of
    ⟨fun | .head n c => .inl (n, c) | .proj c => .inr c, fun | .inl (n, c) => .head n c | .inr c => .proj c,
      fun c => by cases c <;> rfl, fun c => by rcases c with ⟨_, _⟩ | _ <;> rfl⟩

theorem counts_feed : Counts FeedCoord (numel feedForward) := by
  simp only [feedForward, numel_append, numel_under]
  exact (counts_lin 64 (4 * 64)).sum (counts_lin (4 * 64) 64) |>.of
    ⟨fun | .l1 c => .inl c | .l2 c => .inr c, fun | .inl c => .l1 c | .inr c => .l2 c,
      fun c => by cases c <;> rfl, fun c => by rcases c with _ | _ <;> rfl⟩

theorem counts_enc : Counts EncCoord (numel encoderBlock) := by
  simp only [encoderBlock, numel_append, numel_under]
  exact ((counts_attention.sum counts_feed).sum (counts_norm 64)).sum (counts_norm 64) |>.of
    ⟨fun | .attn c => .inl (.inl (.inl c)) | .feed c => .inl (.inl (.inr c)) | .ln1 c => .inl (.inr c) | .ln2 c => .inr c,
      fun | .inl (.inl (.inl c)) => .attn c | .inl (.inl (.inr c)) => .feed c | .inl (.inr c) => .ln1 c | .inr c => .ln2 c,
      fun c => by cases c <;> rfl, fun c => by rcases c with ((_ | _) | _) | _ <;> rfl⟩

theorem counts_dec : Counts DecCoord (numel decoderBlock) := by
  simp only [decoderBlock, numel_append, numel_under]
  exact ((((counts_attention.sum counts_attention).sum counts_feed).sum (counts_norm 64)).sum (counts_norm 64)).sum (counts_norm 64) |>.of
    ⟨fun | .self c => .inl (.inl (.inl (.inl (.inl c)))) | .cross c => .inl (.inl (.inl (.inl (.inr c)))) | .feed c => .inl (.inl (.inl (.inr c)))
         | .ln1 c => .inl (.inl (.inr c)) | .ln2 c => .inl (.inr c) | .ln3 c => .inr c,
      fun | .inl (.inl (.inl (.inl (.inl c)))) => .self c | .inl (.inl (.inl (.inl (.inr c)))) => .cross c | .inl (.inl (.inl (.inr c))) => .feed c
          | .inl (.inl (.inr c)) => .ln1 c | .inl (.inr c) => .ln2 c | .inr c => .ln3 c,
      fun c => by cases c <;> rfl, fun c => by rcases c with ((((_ | _) | _) | _) | _) | _ <;> rfl⟩

theorem counts_tail (n : ℕ) :
    Counts (TailCoord n) (numel (linear n 64) + numel (linear (64 + 7 * 4 + 4) 64) + numel (linear 64 64)) :=
  ((counts_lin n 64).sum (counts_lin (64 + 7 * 4 + 4) 64)).sum (counts_lin 64 64) |>.of
    ⟨fun | .fc_x1 c => .inl (.inl c) | .main1 c => .inl (.inr c) | .main2 c => .inr c,
      fun | .inl (.inl c) => .fc_x1 c | .inl (.inr c) => .main1 c | .inr c => .main2 c,
      fun c => by cases c <;> rfl, fun c => by rcases c with (_ | _) | _ <;> rfl⟩

theorem counts_state2 (c o : ℕ) : Counts (State2Coord c o) (numel (conv2d c 8 3 3) + numel (conv2d 8 o 3 3) +
    (numel (linear (o * (37 * 4) + c * (37 * 4)) 64) + numel (linear (64 + 7 * 4 + 4) 64) + numel (linear 64 64))) :=
  ((counts_conv2 c 8).sum (counts_conv2 8 o)).sum (counts_tail _) |>.of
    ⟨fun | .conv1 c => .inl (.inl c) | .conv2 c => .inl (.inr c) | .tail c => .inr c,
      fun | .inl (.inl c) => .conv1 c | .inl (.inr c) => .conv2 c | .inr c => .tail c,
      fun c => by cases c <;> rfl, fun c => by rcases c with (_ | _) | _ <;> rfl⟩

theorem counts_state1 : Counts State1Coord (numel (conv1d 3 8 3) + numel (conv1d 8 16 3) +
    (numel (linear (16 * 37 + 3 * 37) 64) + numel (linear (64 + 7 * 4 + 4) 64) + numel (linear 64 64))) :=
  ((counts_conv1 3 8).sum (counts_conv1 8 16)).sum (counts_tail _) |>.of
    ⟨fun | .conv1 c => .inl (.inl c) | .conv2 c => .inl (.inr c) | .tail c => .inr c,
      fun | .inl (.inl c) => .conv1 c | .inl (.inr c) => .conv2 c | .inr c => .tail c,
      fun c => by cases c <;> rfl, fun c => by rcases c with (_ | _) | _ <;> rfl⟩

theorem counts_state (v : Variant) : Counts (StateCoord v) (numel (stateNet v)) := by
  cases v <;> simp only [stateNet, convolutions, flatSize, numel_append, numel_under]
  · have h := counts_state1
    simp only [← Nat.add_assoc] at h
    exact h
  · have h := counts_state2 3 8
    simp only [← Nat.add_assoc] at h
    exact h
  · have h := counts_state2 6 16
    simp only [← Nat.add_assoc] at h
    exact h

/-- the rows of the trainable tables -/
inductive TableRow (v : Variant) where
  | type (i : Fin (tableSize v .type))
  | tile (i : Fin (tableSize v .tile))
  | tsumogiri (i : Fin (tableSize v .tsumogiri))
  | during (i : Fin (tableSize v .during))
  | post (i : Fin (tableSize v .post))

theorem counts_rows (v : Variant) : Counts (TableRow v) (4 + 37 + tableSize v .tsumogiri + 71 + 154) := by
  have h : Counts (TableRow v) (tableSize v .type + tableSize v .tile + tableSize v .tsumogiri + tableSize v .during + tableSize v .post) :=
    ((((Counts.fin _).sum (.fin _)).sum (.fin _)).sum (.fin _)).sum (.fin _) |>.of
      ⟨fun | .type c => .inl (.inl (.inl (.inl c))) | .tile c => .inl (.inl (.inl (.inr c))) | .tsumogiri c => .inl (.inl (.inr c))
           | .during c => .inl (.inr c) | .post c => .inr c,
        fun | .inl (.inl (.inl (.inl c))) => .type c | .inl (.inl (.inl (.inr c))) => .tile c | .inl (.inl (.inr c)) => .tsumogiri c
            | .inl (.inr c) => .during c | .inr c => .post c,
        fun c => by cases c <;> rfl, fun c => by rcases c with (((_ | _) | _) | _) | _ <;> rfl⟩
  cases v <;> exact h

/-- the existing numbers, sorted -/
def sortCoord {v : Variant} {n : ℕ} : {c : Coord v // c.Exists n n} ≃
    (TableRow v × Fin 64) ⊕ (Fin n × EncCoord) ⊕ StateCoord v ⊕ (Fin n × DecCoord) ⊕ NormCoord 64 ⊕
      (LinCoord 64 37 ⊕ LinCoord 64 71 ⊕ LinCoord 64 154) where
  toFun
    | ⟨.table .type i j, h⟩ => .inl (.type ⟨i, h.1⟩, j)
    | ⟨.table .tile i j, h⟩ => .inl (.tile ⟨i, h.1⟩, j)
    | ⟨.table .tsumogiri i j, h⟩ => .inl (.tsumogiri ⟨i, h.1⟩, j)
    | ⟨.table .during i j, h⟩ => .inl (.during ⟨i, h.1⟩, j)
    | ⟨.table .post i j, h⟩ => .inl (.post ⟨i, h.1⟩, j)
    | ⟨.table .position _ _, h⟩ => (h.2.1 rfl).elim
    | ⟨.table .player _ _, h⟩ => (h.2.2 rfl).elim
    | ⟨.enc k c, h⟩ => .inr (.inl (⟨k, h⟩, c))
    | ⟨.state c, _⟩ => .inr (.inr (.inl c))
    | ⟨.dec k c, h⟩ => .inr (.inr (.inr (.inl (⟨k, h⟩, c))))
    | ⟨.ln_f c, _⟩ => .inr (.inr (.inr (.inr (.inl c))))
    | ⟨.head .discard c, _⟩ => .inr (.inr (.inr (.inr (.inr (.inl c)))))
    | ⟨.head .during c, _⟩ => .inr (.inr (.inr (.inr (.inr (.inr (.inl c))))))
    | ⟨.head .post c, _⟩ => .inr (.inr (.inr (.inr (.inr (.inr (.inr c))))))
  invFun
    | .inl (.type i, j) => ⟨.table .type i j, i.isLt, by decide, by decide⟩
    | .inl (.tile i, j) => ⟨.table .tile i j, i.isLt, by decide, by decide⟩
    | .inl (.tsumogiri i, j) => ⟨.table .tsumogiri i j, i.isLt, by decide, by decide⟩
    | .inl (.during i, j) => ⟨.table .during i j, i.isLt, by decide, by decide⟩
    | .inl (.post i, j) => ⟨.table .post i j, i.isLt, by decide, by decide⟩
    | .inr (.inl (k, c)) => ⟨.enc k c, k.isLt⟩
    | .inr (.inr (.inl c)) => ⟨.state c, trivial⟩
    | .inr (.inr (.inr (.inl (k, c)))) => ⟨.dec k c, k.isLt⟩
    | .inr (.inr (.inr (.inr (.inl c)))) => ⟨.ln_f c, trivial⟩
    | .inr (.inr (.inr (.inr (.inr (.inl c))))) => ⟨.head .discard c, trivial⟩
    | .inr (.inr (.inr (.inr (.inr (.inr (.inl c)))))) => ⟨.head .during c, trivial⟩
    | .inr (.inr (.inr (.inr (.inr (.inr (.inr c)))))) => ⟨.head .post c, trivial⟩
  left_inv := by
    rintro ⟨c, h⟩
    cases c with
    | table name i j => cases name <;> first | rfl | exact (h.2.1 rfl).elim | exact (h.2.2 rfl).elim
    | head hd c => cases hd <;> rfl
    | _ => rfl
  right_inv := by
    rintro (⟨⟨⟩, _⟩ | ⟨_, _⟩ | _ | ⟨_, _⟩ | _ | _ | _ | _) <;> rfl

/-- **C167.** The number printed is the number of numbers that the network computes with and training changes. -/
theorem C167_count (v : Variant) (n : ℕ) : Nat.card {c : Coord v // c.Exists n n} = numel (model v n) := by
  have h := ((counts_rows v).prod (.fin 64)).sum (((Counts.fin n).prod counts_enc).sum ((counts_state v).sum
    (((Counts.fin n).prod counts_dec).sum ((counts_norm 64).sum ((counts_lin 64 37).sum ((counts_lin 64 71).sum (counts_lin 64 154)))))))
  rw [(h.of sortCoord).card]
  cases v <;> simp only [model, encoder, decoder, numel_append, numel_under, numel_numbered, numel_embedding, tableSize] <;> omega

end MJ

namespace MJ.Net
open MJ.Spec

/-! ### what is loaded -/

theorem lin_load {m n : ℕ} (q p : Linear m n) : q.update (fun c _ => p.get c) = p := rfl
theorem norm_load {n : ℕ} (q p : LayerNorm n) : q.update (fun c _ => p.get c) = p := rfl
theorem enc_load (q p : EncoderBlock) : q.update (fun c _ => p.get c) = p := rfl
theorem dec_load (q p : DecoderBlock) : q.update (fun c _ => p.get c) = p := rfl
theorem state_load (v : Variant) (q p : StateNet v) : updateState v q (fun c _ => getState v p c) = p := by
  cases v <;> rfl

/-- **C167.** A new model with as many layers that loads the numbers of a checkpoint computes what the saved model computed, for
every batch of tokens that occur in samples, in evaluation and in training mode. -/
theorem C167_restored {v : Variant} {h : HeadName} {B : ℕ} (gelu : ℝ → ℝ) (p q : Params v) (hp : FixedTables p.tables)
    (hq : FixedTables q.tables) (h1 : q.encoder.length = p.encoder.length) (h2 : q.decoder.length = p.decoder.length)
    (saved : Coord v → ℝ) (hs : ∀ c, c.Exists p.encoder.length p.decoder.length → saved c = p.get c) (X : Input v h B)
    (hX : ∀ b t, ∃ n, LogToken n ∧ X.tokens b t = BitVec.ofNat 64 n) :
    run gelu (q.load saved) X = run gelu p X ∧ ∀ r, runDrop gelu (q.load saved) r X = runDrop gelu p r X := by
  refine C150_network gelu _ _ ?_ ?_ ?_ X hX
  · exact hq.1.trans hp.1.symm
  · intro name i hi
    funext j
    have ht : name ≠ .position → name ≠ .player → saved (.table name i j) = p.tables.row name i j :=
      fun a b => hs (.table name i j) ⟨hi.1, a, b⟩
    cases name
    case position => exact (hq.2.1 i j).trans (hp.2.1 i j).symm
    case player => exact (hq.2.2 i j).trans (hp.2.2 i j).symm
    all_goals exact ht (by decide) (by decide)
  · have e1 : (q.load saved).encoder = p.encoder := by
      refine List.ext_getElem? fun k => ?_
      simp only [Params.load, Params.update, List.getElem?_mapIdx]
      by_cases hk : k < p.encoder.length
      · rw [List.getElem?_eq_getElem hk, List.getElem?_eq_getElem (h1 ▸ hk)]
        simp only [Option.map_some, Option.some.injEq]
        have : (fun (c : EncCoord) (_ : ℝ) => saved (.enc k c)) = fun c _ => (p.encoder[k]).get c := by
          funext c _
          rw [hs (.enc k c) hk]
          simp [Params.get, hk]
        rw [this, enc_load]
      · rw [List.getElem?_eq_none (by omega), List.getElem?_eq_none (by omega)]
        rfl
    have e2 : (q.load saved).decoder = p.decoder := by
      refine List.ext_getElem? fun k => ?_
      simp only [Params.load, Params.update, List.getElem?_mapIdx]
      by_cases hk : k < p.decoder.length
      · rw [List.getElem?_eq_getElem hk, List.getElem?_eq_getElem (h2 ▸ hk)]
        simp only [Option.map_some, Option.some.injEq]
        have : (fun (c : DecCoord) (_ : ℝ) => saved (.dec k c)) = fun c _ => (p.decoder[k]).get c := by
          funext c _
          rw [hs (.dec k c) hk]
          simp [Params.get, hk]
        rw [this, dec_load]
      · rw [List.getElem?_eq_none (by omega), List.getElem?_eq_none (by omega)]
        rfl
    have e3 : (q.load saved).state_net = p.state_net := by
      show updateState v q.state_net (fun c _ => saved (.state c)) = _
      have : (fun (c : StateCoord v) (_ : ℝ) => saved (.state c)) = fun c _ => getState v p.state_net c := by
        funext c _; exact hs (.state c) trivial
      rw [this, state_load]
    have e4 : (q.load saved).ln_f = p.ln_f := by
      show q.ln_f.update (fun c _ => saved (.ln_f c)) = _
      have : (fun (c : NormCoord embdSize) (_ : ℝ) => saved (.ln_f c)) = fun c _ => p.ln_f.get c := by
        funext c _; exact hs (.ln_f c) trivial
      rw [this, norm_load]
    have e5 : (q.load saved).heads = p.heads := by
      funext hd
      show (q.heads hd).update (fun c _ => saved (.head hd c)) = _
      have : (fun (c : LinCoord embdSize (actionDim hd)) (_ : ℝ) => saved (.head hd c)) = fun c _ => (p.heads hd).get c := by
        funext c _; exact hs (.head hd c) trivial
      rw [this, lin_load]
    generalize hr : q.load saved = r at *
    obtain ⟨r1, r2, r3, r4, r5, r6⟩ := r
    obtain ⟨p1, p2, p3, p4, p5, p6⟩ := p
    dsimp only at e1 e2 e3 e4 e5
    subst e1 e2 e3 e4 e5
    rfl

/-- C167 is not vacuous: there are different parameters with the same numbers of blocks and fixed tables -/
example (v : Variant) : ∃ p q : Params v, FixedTables p.tables ∧ FixedTables q.tables ∧ q.encoder.length = p.encoder.length ∧
    q.decoder.length = p.decoder.length ∧ p.ln_f.bias ≠ q.ln_f.bias :=
  let p : Params v := { zeroModel v with tables := lumpTables v 0, ln_f := ⟨fun _ => 1, fun _ => 0⟩ }
  ⟨p, { p with ln_f := ⟨fun _ => 1, fun _ => 1⟩ }, lumpTables_fixed v 0, lumpTables_fixed v 0, rfl, rfl,
    fun h => zero_ne_one (congrFun h 0)⟩

end MJ.Net
