import Verif.Spec.Moves
import Verif.Props.Embedding
/-!
Classes of functions that are closed under the operations of the networks.
-/
namespace MJ.Net
open scoped BigOperators
open Spec

variable {I : Type}

structure Closed (gelu : ℝ → ℝ) (S : (I → ℝ) → Prop) : Prop where
  const : ∀ c, S (fun _ => c)
  add : ∀ {f g}, S f → S g → S (fun t => f t + g t)
  mul : ∀ {f g}, S f → S g → S (fun t => f t * g t)
  inv : ∀ {f}, S f → (∀ t, f t ≠ 0) → S (fun t => (f t)⁻¹)
  exp : ∀ {f}, S f → S (fun t => Real.exp (f t))
  sqrt : ∀ {f}, S f → (∀ t, 0 < f t) → S (fun t => Real.sqrt (f t))
  log : ∀ {f}, S f → (∀ t, 0 < f t) → S (fun t => Real.log (f t))
  gelu : ∀ {f}, S f → S (fun t => gelu (f t))

section
variable {gelu : ℝ → ℝ} {S : (I → ℝ) → Prop} (hS : Closed gelu S)
include hS

theorem Closed.sum {α : Type} (s : Finset α) {f : I → α → ℝ} (h : ∀ i, S (fun t => f t i)) : S (fun t => ∑ i ∈ s, f t i) := by
  classical
  induction s using Finset.induction_on with
  | empty => simpa using hS.const 0
  | insert a s ha ih => simp only [Finset.sum_insert ha]; exact hS.add (h a) ih

theorem Closed.sub {f g : I → ℝ} (hf : S f) (hg : S g) : S (fun t => f t - g t) := by
  have := hS.add hf (hS.mul (hS.const (-1)) hg)
  simpa [sub_eq_add_neg] using this

theorem Closed.div {f g : I → ℝ} (hf : S f) (hg : S g) (h0 : ∀ t, g t ≠ 0) : S (fun t => f t / g t) := by
  simpa [div_eq_mul_inv] using hS.mul hf (hS.inv hg h0)

theorem Closed.divc {f : I → ℝ} (hf : S f) (c : ℝ) : S (fun t => f t / c) := by
  simpa [div_eq_mul_inv] using hS.mul hf (hS.const c⁻¹)

theorem Closed.linear {m n : ℕ} {l : I → Linear m n} (hl : LinearIn S l) {x : I → Fin m → ℝ} (hx : ∀ i, S (fun t => x t i)) (o : Fin n) :
    S (fun t => (l t).fwd (x t) o) :=
  hS.add (hS.sum _ (fun i => hS.mul (hl.weight o i) (hx i))) (hl.bias o)

theorem Closed.mean {n : ℕ} {x : I → Fin n → ℝ} (hx : ∀ i, S (fun t => x t i)) : S (fun t => mean (x t)) :=
  hS.divc (hS.sum _ hx) _

theorem Closed.norm {n : ℕ} {l : I → LayerNorm n} (hl : NormIn S l) {x : I → Fin n → ℝ} (hx : ∀ i, S (fun t => x t i)) (i : Fin n) :
    S (fun t => (l t).fwd (x t) i) := by
  have hv : S (fun t => variance (x t) + 1 / 100000) := by
    refine hS.add (hS.divc (hS.sum _ (fun i => ?_)) _) (hS.const _)
    have := hS.sub (hx i) (hS.mean hx)
    simpa [pow_two] using hS.mul this this
  have hp : ∀ t, 0 < variance (x t) + 1 / 100000 := fun t => by
    have : 0 ≤ variance (x t) := div_nonneg (Finset.sum_nonneg (fun i _ => sq_nonneg _)) (Nat.cast_nonneg _)
    linarith
  exact hS.add (hS.mul (hS.div (hS.sub (hx i) (hS.mean hx)) (hS.sqrt hv hp) (fun t => (Real.sqrt_pos.2 (hp t)).ne')) (hl.weight i)) (hl.bias i)

theorem Closed.softmax {n : ℕ} {x : I → Fin n → ℝ} (hx : ∀ i, S (fun t => x t i)) (i : Fin n) : S (fun t => softmax (x t) i) :=
  hS.div (hS.exp (hx i)) (hS.sum _ (fun j => hS.exp (hx j)))
    (fun t => (Finset.sum_pos (fun j _ => Real.exp_pos _) ⟨i, Finset.mem_univ i⟩).ne')

theorem Closed.attn {B T Q : ℕ} {m : I → MultiHeadAttention} (hm : AttnIn S m) {k v : I → T3 B T embdSize} {q : I → T3 B Q embdSize}
    (hk : ∀ b s i, S (fun t => k t b s i)) (hv : ∀ b s i, S (fun t => v t b s i)) (hq : ∀ b s i, S (fun t => q t b s i))
    (b : Fin B) (s : Fin Q) (i : Fin embdSize) : S (fun t => (m t).fwd (k t) (v t) (q t) b s i) := by
  refine hS.linear hm.proj (fun j => ?_) i
  have hw : ∀ w, S (fun t => (∑ c, ((m t).heads j.divNat).query.fwd (q t b s) c * ((m t).heads j.divNat).key.fwd (k t b w) c) /
      Real.sqrt headSize) :=
    fun w => hS.divc (hS.sum _ (fun c => hS.mul (hS.linear (hm.query _) (hq b s) c) (hS.linear (hm.key _) (hk b w) c))) _
  have hu : ∀ u, S (fun t => ((m t).heads j.divNat).wei (k t) (q t) b s u * ((m t).heads j.divNat).value.fwd (v t b u) j.modNat) :=
    fun u => hS.mul (hS.softmax hw u) (hS.linear (hm.value _) (hv b u) _)
  exact hS.sum Finset.univ hu

theorem Closed.feed {f : I → FeedForward} (hf : FeedIn S f) {x : I → Fin embdSize → ℝ} (hx : ∀ i, S (fun t => x t i)) (i : Fin embdSize) :
    S (fun t => (f t).fwd gelu (x t) i) :=
  hS.linear hf.l2 (fun j => hS.gelu (hS.linear hf.l1 hx j)) i

theorem Closed.enc {B T : ℕ} {e : I → EncoderBlock} (he : EncIn S e) {x : I → T3 B T embdSize} (hx : ∀ b s i, S (fun t => x t b s i))
    (b : Fin B) (s : Fin T) (i : Fin embdSize) : S (fun t => (e t).fwd gelu (x t) b s i) := by
  have h1 : ∀ b s i, S (fun t => (e t).ln1.fwd (x t b s) i) := fun b s i => hS.norm he.ln1 (hx b s) i
  have h2 : ∀ b s i, S (fun t => x t b s i + (e t).self_attention.fwd (fun b s => (e t).ln1.fwd (x t b s))
      (fun b s => (e t).ln1.fwd (x t b s)) (fun b s => (e t).ln1.fwd (x t b s)) b s i) :=
    fun b s i => hS.add (hx b s i) (hS.attn he.self_attention h1 h1 h1 b s i)
  exact hS.add (h2 b s i) (hS.feed he.ffwd (fun j => hS.norm he.ln2 (h2 b s) j) i)

theorem Closed.encs {B T : ℕ} {l : I → List EncoderBlock} (hl : ListIn (EncIn S) l) {x : I → T3 B T embdSize}
    (hx : ∀ b s i, S (fun t => x t b s i)) (b : Fin B) (s : Fin T) (i : Fin embdSize) : S (fun t => encBlocks gelu (l t) (x t) b s i) := by
  obtain ⟨cs, h1, h2⟩ := hl
  simp only [h2]
  clear h2
  induction cs generalizing x with
  | nil => exact hx b s i
  | cons c cs ih =>
    exact ih (x := fun t => (c t).fwd gelu (x t)) (fun b s i => hS.enc (h1 c (by simp)) hx b s i) (fun c hc => h1 c (by simp [hc]))

theorem Closed.decBasic {B T : ℕ} {d : I → DecoderBlock} (hd : DecIn S d) {x : I → T2 B embdSize} {enc : I → T3 B T embdSize}
    (hx : ∀ b i, S (fun t => x t b i)) (he : ∀ b s i, S (fun t => enc t b s i)) (b : Fin B) (i : Fin embdSize) :
    S (fun t => (d t).fwdBasic gelu (x t) (enc t) b i) := by
  have h1 : ∀ b i, S (fun t => x t b i + squeeze1 ((d t).self_attention.fwd (enc t) (enc t)
      (unsqueeze1 (fun b => (d t).ln1.fwd (x t b)))) b i) :=
    fun b i => hS.add (hx b i) (hS.attn hd.self_attention (q := fun t => unsqueeze1 (fun b => (d t).ln1.fwd (x t b))) he he
      (fun b s i => hS.norm hd.ln1 (hx b) i) b 0 i)
  generalize hy : (fun t b i => x t b i + squeeze1 ((d t).self_attention.fwd (enc t) (enc t)
      (unsqueeze1 (fun b => (d t).ln1.fwd (x t b)))) b i) = y
  replace h1 : ∀ b i, S (fun t => y t b i) := by subst hy; exact h1
  have h2 : ∀ b i, S (fun t => y t b i + squeeze1 ((d t).cross_attention.fwd (enc t) (enc t)
      (unsqueeze1 (fun b => (d t).ln2.fwd (y t b)))) b i) :=
    fun b i => hS.add (h1 b i) (hS.attn hd.cross_attention (q := fun t => unsqueeze1 (fun b => (d t).ln2.fwd (y t b))) he he
      (fun b s i => hS.norm hd.ln2 (h1 b) i) b 0 i)
  generalize hz : (fun t b i => y t b i + squeeze1 ((d t).cross_attention.fwd (enc t) (enc t)
      (unsqueeze1 (fun b => (d t).ln2.fwd (y t b)))) b i) = z
  replace h2 : ∀ b i, S (fun t => z t b i) := by subst hz; exact h2
  have h3 : S (fun t => z t b i + (d t).ffwd.fwd gelu ((d t).ln3.fwd (z t b)) i) :=
    hS.add (h2 b i) (hS.feed hd.ffwd (fun j => hS.norm hd.ln3 (h2 b) j) i)
  subst hz hy
  exact h3

theorem Closed.decOrdered {B Q T : ℕ} {d : I → DecoderBlock} (hd : DecIn S d) {x : I → T3 B Q embdSize} {enc : I → T3 B T embdSize}
    (hx : ∀ b s i, S (fun t => x t b s i)) (he : ∀ b s i, S (fun t => enc t b s i)) (b : Fin B) (s : Fin Q) (i : Fin embdSize) :
    S (fun t => (d t).fwdOrdered gelu (x t) (enc t) b s i) := by
  have h0 : ∀ b s i, S (fun t => (d t).ln1.fwd (x t b s) i) := fun b s i => hS.norm hd.ln1 (hx b s) i
  have h1 : ∀ b s i, S (fun t => x t b s i + (d t).self_attention.fwd (fun b s => (d t).ln1.fwd (x t b s))
      (fun b s => (d t).ln1.fwd (x t b s)) (fun b s => (d t).ln1.fwd (x t b s)) b s i) :=
    fun b s i => hS.add (hx b s i) (hS.attn hd.self_attention h0 h0 h0 b s i)
  generalize hy : (fun t b s i => x t b s i + (d t).self_attention.fwd (fun b s => (d t).ln1.fwd (x t b s))
      (fun b s => (d t).ln1.fwd (x t b s)) (fun b s => (d t).ln1.fwd (x t b s)) b s i) = y
  replace h1 : ∀ b s i, S (fun t => y t b s i) := by subst hy; exact h1
  have h2 : ∀ b s i, S (fun t => y t b s i + (d t).cross_attention.fwd (enc t) (enc t) (fun b s => (d t).ln2.fwd (y t b s)) b s i) :=
    fun b s i => hS.add (h1 b s i) (hS.attn hd.cross_attention he he (fun b s i => hS.norm hd.ln2 (h1 b s) i) b s i)
  generalize hz : (fun t b s i => y t b s i + (d t).cross_attention.fwd (enc t) (enc t) (fun b s => (d t).ln2.fwd (y t b s)) b s i) = z
  replace h2 : ∀ b s i, S (fun t => z t b s i) := by subst hz; exact h2
  have h3 : S (fun t => z t b s i + (d t).ffwd.fwd gelu ((d t).ln3.fwd (z t b s)) i) :=
    hS.add (h2 b s i) (hS.feed hd.ffwd (fun j => hS.norm hd.ln3 (h2 b s) j) i)
  subst hz hy
  exact h3

theorem Closed.decs {v : Variant} {B T : ℕ} {l : I → List DecoderBlock} (hl : ListIn (DecIn S) l) {ln : I → LayerNorm embdSize}
    (hn : NormIn S ln) {x : I → T2 B embdSize} {enc : I → T3 B T embdSize}
    (hx : ∀ b i, S (fun t => x t b i)) (he : ∀ b s i, S (fun t => enc t b s i)) (b : Fin B) (i : Fin embdSize) :
    S (fun t => decBlocks v gelu (l t) (ln t) (x t) (enc t) b i) := by
  obtain ⟨cs, h1, h2⟩ := hl
  simp only [h2]
  clear h2
  have basic : ∀ (cs : List (I → DecoderBlock)) (x : I → T2 B embdSize), (∀ c ∈ cs, DecIn S c) → (∀ b i, S (fun t => x t b i)) → ∀ b i,
      S (fun t => (ln t).fwd ((cs.map (fun c => c t)).foldl (fun x d => d.fwdBasic gelu x (enc t)) (x t) b) i) := by
    intro cs
    induction cs with
    | nil => exact fun x _ hx b i => hS.norm hn (hx b) i
    | cons c cs ih =>
      exact fun x hc hx b i => ih (fun t => (c t).fwdBasic gelu (x t) (enc t)) (fun c h => hc c (by simp [h]))
        (fun b i => hS.decBasic (hc c (by simp)) hx he b i) b i
  have ordered : ∀ (cs : List (I → DecoderBlock)) (x : I → T3 B 1 embdSize), (∀ c ∈ cs, DecIn S c) → (∀ b s i, S (fun t => x t b s i)) →
      ∀ b i, S (fun t => (ln t).fwd ((cs.map (fun c => c t)).foldl (fun x d => d.fwdOrdered gelu x (enc t)) (x t) b 0) i) := by
    intro cs
    induction cs with
    | nil => exact fun x _ hx b i => hS.norm hn (hx b 0) i
    | cons c cs ih =>
      exact fun x hc hx b i => ih (fun t => (c t).fwdOrdered gelu (x t) (enc t)) (fun c h => hc c (by simp [h]))
        (fun b s i => hS.decOrdered (hc c (by simp)) hx he b s i) b i
  cases v with
  | basic => exact basic cs x h1 hx b i
  | conv => exact basic cs x h1 hx b i
  | ordered => exact ordered cs (fun t => unsqueeze1 (x t)) h1 (fun b _ i => hx b i) b i

theorem Closed.masked {f : I → Fin embdSize → ℝ} (m : Bool) {j : Fin embdSize} (hf : S (fun t => f t j)) :
    S (fun t => MJ.masked m (f t) j) := by
  cases m
  · exact hS.const 0
  · exact hf

/-- the embedding of a token: in the class, or an exception for all `t` -/
theorem Closed.embed {v : Variant} {T : I → Tables (Fin embdSize → ℝ)} (hT : TablesIn S T) (player : Int) {pos : ℕ} (hp : pos < 150)
    (tok : BitVec 64) : ((∃ e : I → Fin embdSize → ℝ, (∀ t, embed v (T t) player pos tok = .ok (e t)) ∧ ∀ j, S (fun t => e t j)) ∧
      (tokenFields tok).embedding_type ≤ 4) ∨ ((∀ t, ¬ ∃ e, embed v (T t) player pos tok = .ok e) ∧ ¬ (tokenFields tok).embedding_type ≤ 4) := by
  by_cases he : (tokenFields tok).embedding_type ≤ 4
  · refine .inl ⟨?_, he⟩
    cases v with
    | ordered =>
      refine ⟨_, fun t => embedOrdered_eq (T t) player pos tok hp he, fun j => ?_⟩
      simp only [Pi.add_apply]
      refine hS.add (hS.add (hS.add (hS.add (hS.add (hS.add (hS.add (hT.empty j) ?_) ?_) ?_) ?_) ?_) ?_) ?_
      all_goals first | exact hS.masked _ (hT.type _ j) | exact hS.masked _ (hT.tile _ j) | exact hS.masked _ (hT.player _ j) |
        exact hS.masked _ (hT.tsumogiri _ j) | exact hS.masked _ (hT.position _ j) | exact hS.masked _ (hT.during_naki _ j) |
        exact hS.masked _ (hT.post_naki _ j)
    | basic =>
      refine ⟨_, fun t => embedBasic_eq (T t) pos tok hp he, fun j => ?_⟩
      simp only [Pi.add_apply]
      refine hS.add (hS.add (hS.add (hS.add (hS.add (hS.add (hS.add (hT.empty j) ?_) ?_) ?_) ?_) ?_) ?_) ?_
      all_goals first | exact hS.masked _ (hT.type _ j) | exact hS.masked _ (hT.tile _ j) | exact hS.masked _ (hT.player _ j) |
        exact hS.masked _ (hT.tsumogiri _ j) | exact hS.masked _ (hT.position _ j) | exact hS.masked _ (hT.during_naki _ j) |
        exact hS.masked _ (hT.post_naki _ j)
    | conv =>
      refine ⟨_, fun t => embedBasic_eq (T t) pos tok hp he, fun j => ?_⟩
      simp only [Pi.add_apply]
      refine hS.add (hS.add (hS.add (hS.add (hS.add (hS.add (hS.add (hT.empty j) ?_) ?_) ?_) ?_) ?_) ?_) ?_
      all_goals first | exact hS.masked _ (hT.type _ j) | exact hS.masked _ (hT.tile _ j) | exact hS.masked _ (hT.player _ j) |
        exact hS.masked _ (hT.tsumogiri _ j) | exact hS.masked _ (hT.position _ j) | exact hS.masked _ (hT.during_naki _ j) |
        exact hS.masked _ (hT.post_naki _ j)
  · refine .inr ⟨fun t ⟨e, h⟩ => ?_, he⟩
    cases v with
    | ordered => exact absurd (h.symm.trans (embedOrdered_err (T t) player pos tok he)) (by simp)
    | basic => exact absurd (h.symm.trans (embedBasic_err (T t) pos tok he)) (by simp)
    | conv => exact absurd (h.symm.trans (embedBasic_err (T t) pos tok he)) (by simp)

theorem Closed.pad {n : ℕ} {x : I → Fin n → ℝ} (hx : ∀ i, S (fun t => x t i)) (q : Fin n) (k : Fin 3) : S (fun t => pad1 (x t) q k) := by
  unfold pad1
  split
  · exact hx _
  · exact hS.const 0

theorem Closed.conv1 {c o n : ℕ} {f : I → Conv1d c o} (hf : Conv1In S f) {x : I → T2 c n} (hx : ∀ i q, S (fun t => x t i q)) (m : Fin o)
    (q : Fin n) : S (fun t => (f t).fwd (x t) m q) :=
  hS.add (hS.sum _ (fun i => hS.sum _ (fun k => hS.mul (hf.weight m i k) (hS.pad (hx i) q k)))) (hf.bias m)

theorem Closed.conv2 {c o n w : ℕ} {f : I → Conv2d c o} (hf : Conv2In S f) {x : I → T3 c n w} (hx : ∀ i q r, S (fun t => x t i q r))
    (m : Fin o) (q : Fin n) (r : Fin w) : S (fun t => (f t).fwd (x t) m q r) :=
  hS.add (hS.sum _ (fun i => hS.sum _ (fun k => hS.sum _ (fun l => hS.mul (hf.weight m i k l)
    (hS.pad (x := fun t p' => pad1 (x t i p') r l) (fun p' => hS.pad (hx i p') r l) q k))))) (hf.bias m)

omit hS in
theorem cat_in {a b : ℕ} {x : I → Fin a → ℝ} {y : I → Fin b → ℝ} (hx : ∀ i, S (fun t => x t i)) (hy : ∀ i, S (fun t => y t i))
    (i : Fin (a + b)) : S (fun t => cat (x t) (y t) i) := by
  unfold cat
  refine Fin.addCases (fun j => ?_) (fun j => ?_) i
  · simp only [Fin.append_left]; exact hx j
  · simp only [Fin.append_right]; exact hy j

variable (hR : ∀ {f}, S f → S (fun t => relu (f t)))
include hR

theorem Closed.tail {n : ℕ} {s : I → StateTail n} (hs : TailIn S s) {x1 : I → Fin n → ℝ} {x2 : I → T2 7 4} {x3 : I → Fin 4 → ℝ}
    (h1 : ∀ i, S (fun t => x1 t i)) (h2 : ∀ i j, S (fun t => x2 t i j)) (h3 : ∀ i, S (fun t => x3 t i)) (i : Fin embdSize) :
    S (fun t => (s t).fwd (x1 t) (x2 t) (x3 t) i) := by
  have ha : ∀ i, S (fun t => relu ((s t).fc_x1.fwd (x1 t) i)) := fun i => hR (hS.linear hs.fc_x1 h1 i)
  have hb : ∀ i, S (fun t => cat (cat (fun i => relu ((s t).fc_x1.fwd (x1 t) i)) (flatten (x2 t))) (x3 t) i) :=
    fun i => cat_in (x := fun t => cat (fun i => relu ((s t).fc_x1.fwd (x1 t) i)) (flatten (x2 t)))
      (fun j => cat_in (x := fun t i => relu ((s t).fc_x1.fwd (x1 t) i)) (y := fun t => flatten (x2 t)) ha (fun j => h2 _ _) j) h3 i
  exact hR (hS.linear hs.fc_main_2 (x := fun t i => relu ((s t).fc_main_1.fwd (cat (cat (fun i => relu ((s t).fc_x1.fwd (x1 t) i))
    (flatten (x2 t))) (x3 t)) i)) (fun j => hR (hS.linear hs.fc_main_1 hb j)) i)

theorem Closed.state : ∀ {v : Variant} {s : I → StateNet v}, StateIn S v s → ∀ {x1 : I → T3 (chan v) 37 (width v)} {x2 : I → T2 7 4}
    {x3 : I → Fin 4 → ℝ}, (∀ c k w, S (fun t => x1 t c k w)) → (∀ i j, S (fun t => x2 t i j)) → (∀ i, S (fun t => x3 t i)) →
    ∀ i, S (fun t => stateNet v (s t) (x1 t) (x2 t) (x3 t) i)
  | .basic, s, ⟨hs1, hs2, hs3⟩, x1, x2, x3, h1, h2, h3, i => by
    have hc1 : ∀ m p, S (fun t => relu ((StateNet1.conv1 (s t)).fwd (fun c k => x1 t c k 0) m p)) :=
      fun m p => hR (hS.conv1 hs1 (fun c k => h1 c k 0) m p)
    have hc2 : ∀ m p, S (fun t => relu ((StateNet1.conv2 (s t)).fwd
        (fun m p => relu ((StateNet1.conv1 (s t)).fwd (fun c k => x1 t c k 0) m p)) m p)) :=
      fun m p => hR (hS.conv1 hs2 hc1 m p)
    exact hS.tail hR hs3 (x1 := fun t => cat (flatten _) (flatten _))
      (fun j => cat_in (x := fun t => flatten _) (y := fun t => flatten (fun c k => x1 t c k 0)) (fun j => hc2 _ _) (fun j => h1 _ _ 0) j) h2 h3 i
  | .conv, s, ⟨hs1, hs2, hs3⟩, x1, x2, x3, h1, h2, h3, i => by
    have hc1 : ∀ m p r, S (fun t => relu ((StateNet2.conv1 (s t)).fwd (x1 t) m p r)) := fun m p r => hR (hS.conv2 hs1 h1 m p r)
    have hc2 : ∀ m p r, S (fun t => relu ((StateNet2.conv2 (s t)).fwd
        (fun m p r => relu ((StateNet2.conv1 (s t)).fwd (x1 t) m p r)) m p r)) :=
      fun m p r => hR (hS.conv2 hs2 hc1 m p r)
    exact hS.tail hR hs3 (x1 := fun t => cat (flatten (fun m => flatten _)) (flatten (fun m => flatten _)))
      (fun j => cat_in (x := fun t => flatten (fun m => flatten _)) (y := fun t => flatten (fun m => flatten _)) (fun j => hc2 _ _ _)
        (fun j => h1 _ _ _) j) h2 h3 i
  | .ordered, s, ⟨hs1, hs2, hs3⟩, x1, x2, x3, h1, h2, h3, i => by
    have hc1 : ∀ m p r, S (fun t => relu ((StateNet2.conv1 (s t)).fwd (x1 t) m p r)) := fun m p r => hR (hS.conv2 hs1 h1 m p r)
    have hc2 : ∀ m p r, S (fun t => relu ((StateNet2.conv2 (s t)).fwd
        (fun m p r => relu ((StateNet2.conv1 (s t)).fwd (x1 t) m p r)) m p r)) :=
      fun m p r => hR (hS.conv2 hs2 hc1 m p r)
    exact hS.tail hR hs3 (x1 := fun t => cat (flatten (fun m => flatten _)) (flatten (fun m => flatten _)))
      (fun j => cat_in (x := fun t => flatten (fun m => flatten _)) (y := fun t => flatten (fun m => flatten _)) (fun j => hc2 _ _ _)
        (fun j => h1 _ _ _) j) h2 h3 i

omit hR

omit hS in
theorem run_of_embed {v : Variant} {h : HeadName} {B : ℕ} {p : Params v} {X : Input v h B} {emb : T3 B 150 embdSize}
    (he : embedAll p X = .ok emb) : run gelu p X =
      if (∀ b a, X.mask b a = 0 ∨ X.mask b a = 1) ∧ ∀ b, ∃ a, X.mask b a ≠ 0 then
        .ok ⟨fun b => maskedLogits (X.mask b) (rawLogits gelu p X emb b),
          (∑ b, crossEntropy (maskedLogits (X.mask b) (rawLogits gelu p X emb b)) (X.y b)) / B⟩
      else .error .assertion := by
  unfold run
  rw [he]
  by_cases h1 : ∀ b a, X.mask b a = 0 ∨ X.mask b a = 1
  · by_cases h2 : ∀ b, ∃ a, X.mask b a ≠ 0
    · rw [if_pos ⟨h1, h2⟩, decide_eq_true h1, decide_eq_true h2]
      rfl
    · rw [if_neg (fun h => h2 h.2), decide_eq_true h1, decide_eq_false h2]
      rfl
  · rw [if_neg (fun h => h1 h.1), decide_eq_false h1]
    rfl

/-- the embeddings: in the class, or an exception for all `t` -/
theorem Closed.embedAll {v : Variant} {h : HeadName} {B : ℕ} {p : I → Params v} (hp : TablesIn S (fun t => (p t).tables)) (X : I → Input v h B)
    {tok : Fin B → Fin 150 → BitVec 64} {player : Fin B → Int} (h1 : ∀ t, (X t).tokens = tok) (h2 : ∀ t, (X t).player = player) :
    (∀ t, embedAll (p t) (X t) = .error .index) ∨
    ∃ e : I → T3 B 150 embdSize, (∀ t, Net.embedAll (p t) (X t) = .ok (e t)) ∧ ∀ b s j, S (fun t => e t b s j) := by
  by_cases he : ∀ b s, (tokenFields (tok b s)).embedding_type ≤ 4
  · right
    have hem : ∀ b s, ∃ e : I → Fin embdSize → ℝ, (∀ t, Net.embed v (p t).tables (player b) (s : Fin 150).val (tok b s) = .ok (e t)) ∧
        ∀ j, S (fun t => e t j) := fun b s => by
      rcases hS.embed (v := v) hp (player b) s.2 (tok b s) with ⟨h1, _⟩ | ⟨_, h2⟩
      · exact h1
      · exact absurd (he b s) h2
    choose e h3 h4 using hem
    refine ⟨fun t b s => e b s t, fun t => ?_, h4⟩
    unfold Net.embedAll
    rw [h1, h2, if_pos (fun b s => ⟨_, h3 b s t⟩)]
    refine congrArg Except.ok ?_
    funext b s
    rw [h3 b s t]
    rfl
  · left
    intro t
    unfold Net.embedAll
    rw [if_neg]
    rw [h1, h2]
    refine fun hall => he (fun b s => ?_)
    rcases hS.embed (v := v) hp (player b) s.2 (tok b s) with ⟨_, h3⟩ | ⟨h3, _⟩
    · exact h3
    · exact absurd (hall b s) (h3 t)

/-- encoder and decoder for one head, given that the output of `StateNet` is in the class -/
theorem Closed.run {v : Variant} {h : HeadName} {B : ℕ} {p : I → Params v} (hp : ParamsIn S p) (X : Input v h B)
    {x1 : I → T4 B (chan v) 37 (width v)} {x2 : I → T3 B 7 4} {x3 : I → T2 B 4}
    (hx : ∀ b i, S (fun t => stateNet v (p t).state_net (x1 t b) (x2 t b) (x3 t b) i)) :
    RunIn S gelu p (fun t => Spec.Input.withState X (x1 t) (x2 t) (x3 t)) := by
  rcases hS.embedAll hp.tables (fun t => Spec.Input.withState X (x1 t) (x2 t) (x3 t)) (fun _ => rfl) (fun _ => rfl) with he | ⟨e, h1, h2⟩
  · refine .inl ⟨.index, fun t => ?_⟩
    unfold Net.run
    rw [he t]
    rfl
  · by_cases hm : (∀ b a, X.mask b a = 0 ∨ X.mask b a = 1) ∧ ∀ b, ∃ a, X.mask b a ≠ 0
    · right
      have hraw : ∀ b a, S (fun t => rawLogits gelu (p t) (Spec.Input.withState X (x1 t) (x2 t) (x3 t)) (e t) b a) :=
        fun b a => hS.linear (hp.heads h) (fun i => hS.decs hp.decoder hp.ln_f hx (hS.encs hp.encoder h2) b i) a
      have hml : ∀ b a, S (fun t => maskedLogits (X.mask b)
          (rawLogits gelu (p t) (Spec.Input.withState X (x1 t) (x2 t) (x3 t)) (e t) b) a) := fun b a => by
        unfold maskedLogits
        split
        · exact hS.const _
        · exact hraw b a
      refine ⟨_, fun t => (run_of_embed (h1 t)).trans (if_pos hm), hml, ?_⟩
      refine hS.divc (hS.sum _ (fun b => hS.sub (hS.log (hS.sum _ (fun a => hS.exp (hml b a))) (fun t => ?_)) (hml b (X.y b)))) _
      exact Finset.sum_pos (fun j _ => Real.exp_pos _) ⟨X.y b, Finset.mem_univ _⟩
    · exact .inl ⟨.assertion, fun t => (run_of_embed (h1 t)).trans (if_neg hm)⟩

end
end MJ.Net
