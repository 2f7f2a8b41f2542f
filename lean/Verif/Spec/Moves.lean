import Verif.Model.Network
/-!
Parameters that depend on a variable `t`, entry by entry in a class `S` of functions (continuous or differentiable ones).
-/
namespace MJ.Spec
open Net

variable {I : Type} (S : (I → ℝ) → Prop)

structure LinearIn {m n : ℕ} (l : I → Linear m n) : Prop where
  weight : ∀ o i, S (fun t => (l t).weight o i)
  bias : ∀ o, S (fun t => (l t).bias o)

structure NormIn {n : ℕ} (l : I → LayerNorm n) : Prop where
  weight : ∀ i, S (fun t => (l t).weight i)
  bias : ∀ i, S (fun t => (l t).bias i)

structure AttnIn (m : I → MultiHeadAttention) : Prop where
  key : ∀ j, LinearIn S (fun t => ((m t).heads j).key)
  query : ∀ j, LinearIn S (fun t => ((m t).heads j).query)
  value : ∀ j, LinearIn S (fun t => ((m t).heads j).value)
  proj : LinearIn S (fun t => (m t).proj)

structure FeedIn (f : I → FeedForward) : Prop where
  l1 : LinearIn S (fun t => (f t).l1)
  l2 : LinearIn S (fun t => (f t).l2)

structure EncIn (e : I → EncoderBlock) : Prop where
  self_attention : AttnIn S (fun t => (e t).self_attention)
  ffwd : FeedIn S (fun t => (e t).ffwd)
  ln1 : NormIn S (fun t => (e t).ln1)
  ln2 : NormIn S (fun t => (e t).ln2)

structure DecIn (d : I → DecoderBlock) : Prop where
  self_attention : AttnIn S (fun t => (d t).self_attention)
  cross_attention : AttnIn S (fun t => (d t).cross_attention)
  ffwd : FeedIn S (fun t => (d t).ffwd)
  ln1 : NormIn S (fun t => (d t).ln1)
  ln2 : NormIn S (fun t => (d t).ln2)
  ln3 : NormIn S (fun t => (d t).ln3)

/-- a list of fixed length whose members depend on `t` -/
def ListIn {α : Type} (M : (I → α) → Prop) (l : I → List α) : Prop :=
  ∃ cs : List (I → α), (∀ c ∈ cs, M c) ∧ ∀ t, l t = cs.map (fun c => c t)

structure TablesIn (T : I → Tables (Fin embdSize → ℝ)) : Prop where
  empty : ∀ j, S (fun t => (T t).empty j)
  type : ∀ i j, S (fun t => (T t).type i j)
  tile : ∀ i j, S (fun t => (T t).tile i j)
  tsumogiri : ∀ i j, S (fun t => (T t).tsumogiri i j)
  during_naki : ∀ i j, S (fun t => (T t).during_naki i j)
  post_naki : ∀ i j, S (fun t => (T t).post_naki i j)
  position : ∀ i j, S (fun t => (T t).position i j)
  player : ∀ i j, S (fun t => (T t).player i j)

structure Conv1In {c o : ℕ} (f : I → Conv1d c o) : Prop where
  weight : ∀ m i k, S (fun t => (f t).weight m i k)
  bias : ∀ m, S (fun t => (f t).bias m)

structure Conv2In {c o : ℕ} (f : I → Conv2d c o) : Prop where
  weight : ∀ m i k l, S (fun t => (f t).weight m i k l)
  bias : ∀ m, S (fun t => (f t).bias m)

structure TailIn {n : ℕ} (s : I → StateTail n) : Prop where
  fc_x1 : LinearIn S (fun t => (s t).fc_x1)
  fc_main_1 : LinearIn S (fun t => (s t).fc_main_1)
  fc_main_2 : LinearIn S (fun t => (s t).fc_main_2)

/-- all parameters of `StateNet` -/
def StateIn : (v : Variant) → (I → StateNet v) → Prop
  | .basic, s => Conv1In S (fun t => StateNet1.conv1 (s t)) ∧ Conv1In S (fun t => StateNet1.conv2 (s t)) ∧
      TailIn S (fun t => StateNet1.tail (s t))
  | .conv, s => Conv2In S (fun t => StateNet2.conv1 (s t)) ∧ Conv2In S (fun t => StateNet2.conv2 (s t)) ∧
      TailIn S (fun t => StateNet2.tail (s t))
  | .ordered, s => Conv2In S (fun t => StateNet2.conv1 (s t)) ∧ Conv2In S (fun t => StateNet2.conv2 (s t)) ∧
      TailIn S (fun t => StateNet2.tail (s t))

/-- all parameters but those of `StateNet` -/
structure ParamsIn {v : Variant} (p : I → Params v) : Prop where
  tables : TablesIn S (fun t => (p t).tables)
  encoder : ListIn (EncIn S) (fun t => (p t).encoder)
  decoder : ListIn (DecIn S) (fun t => (p t).decoder)
  ln_f : NormIn S (fun t => (p t).ln_f)
  heads : ∀ h, LinearIn S (fun t => (p t).heads h)

/-- the output of the network depends on `t` by functions in `S`, or the same exception is raised for all `t` -/
def RunIn {v : Variant} {h : HeadName} {B : ℕ} (gelu : ℝ → ℝ) (p : I → Params v) (X : I → Input v h B) : Prop :=
  (∃ e, ∀ t, run gelu (p t) (X t) = .error e) ∨
  ∃ o : I → Output h B, (∀ t, run gelu (p t) (X t) = .ok (o t)) ∧ (∀ b a, S (fun t => (o t).logits b a)) ∧
    S (fun t => (o t).loss)

/-- the input with other numbers for the state -/
def Input.withState {v : Variant} {h : HeadName} {B : ℕ} (X : Input v h B) (x1 : T4 B (chan v) 37 (width v)) (x2 : T3 B 7 4)
    (x3 : T2 B 4) : Input v h B := { X with x1 := x1, x2 := x2, x3 := x3 }

end MJ.Spec
