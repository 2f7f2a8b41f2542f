import Verif.Data.TestGame
import Verif.Data.SampleGame
import Verif.Proofs.RulesCheck
import Verif.Props.Dropout
/-!
The two games that come with the code are played by the rules, so what is proved about such games applies to them.
-/
namespace MJ
open Spec Data

/-- C131: the program of Spec/RulesCheck.lean decides whether a round was played by the rules. -/
theorem C131_checker (r : LogRound) : checkRules r = true ↔ PlayedByRules r := checkRules_iff r

def pairsB {α β : Type} (f : α → β → Bool) : List α → List β → Bool
  | [], [] => true
  | a :: as, b :: bs => f a b && pairsB f as bs
  | _, _ => false

theorem pairsB_sound {α β : Type} {f : α → β → Bool} {R : α → β → Prop} (hf : ∀ a b, f a b = true → R a b) :
    ∀ {as : List α} {bs : List β}, pairsB f as bs = true → AllPairs R as bs
  | [], [], _ => .nil
  | a :: as, b :: bs, h => by
    rw [pairsB, Bool.and_eq_true] at h
    exact .cons (hf a b h.1) (pairsB_sound hf h.2)
  | [], _ :: _, h => by simp [pairsB] at h
  | _ :: _, [], h => by simp [pairsB] at h

instance (i : Item) (key v : String) : Decidable (Has i key v) := inferInstanceAs (Decidable (_ = _))
instance (i : Item) (a : Act) : Decidable (Writes i a) := by cases a <;> unfold Writes <;> infer_instance
instance (i : Item) (r : Bool × List Int) : Decidable (WritesResult i r) := by unfold WritesResult; infer_instance
instance (i : Item) (r : LogRound) : Decidable (WritesInit i r) := by unfold WritesInit; infer_instance

/-- the elements are those of the round -/
def writesB (is : List Item) (r : LogRound) : Bool :=
  match is with
  | [] => false
  | i :: rest => decide (WritesInit i r) && pairsB (fun i a => decide (Writes i a)) (rest.take r.acts.length) r.acts &&
      pairsB (fun i a => decide (WritesResult i a)) (rest.drop r.acts.length) r.results

theorem writesB_sound (is : List Item) (r : LogRound) (h : writesB is r = true) : WritesRound is r := by
  cases is with
  | nil => simp [writesB] at h
  | cons i rest =>
    simp only [writesB, Bool.and_eq_true] at h
    exact ⟨i, _, _, by rw [List.take_append_drop], of_decide_eq_true h.1.1, pairsB_sound (fun _ _ => of_decide_eq_true) h.1.2,
      pairsB_sound (fun _ _ => of_decide_eq_true) h.2⟩

theorem flat_traverse (tag : String) (a : List (String × String)) (is : List Item) :
    traverse (.node tag a (is.map (fun i => .node i.tag i.attrib []))) = ⟨tag, a⟩ :: is := by
  rw [traverse]
  congr 1
  induction is with
  | nil => rfl
  | cons i is ih => simp [traverseAll, traverse, ih]

/-- a document of the form of the two logs contains the game -/
theorem written_flat {pi : PyInt} (hpi : ReadsDecimals pi) {a : List (String × String)} {head : List Item}
    {iss : List (List Item)} {rs : List LogRound} {go : Nat} {e : Item} (hgo : Acceptable ⟨go⟩)
    (h1 : (head ++ iss.flatten).filter (fun i => i.tag == "GO") = [e]) (h2 : e.attrib.lookup "type" = some (toString go))
    (h3 : ∀ i ∈ head, i.tag ∈ bookkeeping) (h4 : ∀ i ∈ iss.flatten, i.tag ∉ bookkeeping) (h5 : pairsB writesB iss rs = true) :
    WrittenGame pi (.node "mjloggm" a ((head ++ iss.flatten).map (fun i => .node i.tag i.attrib []))) rs := by
  refine ⟨go, iss, ⟨.node e.tag e.attrib [], toString go, ?_, h2, ?_⟩, hgo, pairsB_sound writesB_sound h5, ?_⟩
  · show List.filter _ (List.map _ _) = _
    rw [List.filter_map]
    have : ((fun e : Elem => e.tag == "GO") ∘ fun i : Item => Elem.node i.tag i.attrib []) = fun i : Item => i.tag == "GO" := rfl
    rw [this, h1]
    rfl
  · exact ⟨_, hpi go, by simp [gameBits]⟩
  · rw [flat_traverse]
    unfold relevant
    rw [List.filter_cons_of_neg (by show ¬ decide ("mjloggm" ∉ bookkeeping) = true; decide), List.filter_append, List.filter_eq_nil_iff.2, List.nil_append, List.filter_eq_self.2]
    · intro i hi
      simpa using h4 i hi
    · intro i hi
      simpa using h3 i hi

set_option maxRecDepth 100000

/-- C131: MahjongAI/tests/data/2023090300gm-00a9-0000-4fd2740e.log is the log of a game of eleven rounds, all of them
played by the rules. -/
theorem C131_test_game {pi : PyInt} (hpi : ReadsDecimals pi) :
    WrittenGame pi testLog testRounds ∧ (∀ r ∈ testRounds, PlayedByRules r) ∧ HasDiscard testRounds := by
  refine ⟨written_flat hpi (go := 169) (e := ⟨"GO", [("type", "169"), ("lobby", "0")]⟩) (by unfold Acceptable; decide)
    (by decide +kernel) (by decide +kernel) (by decide +kernel) (by decide +kernel) (by decide +kernel), ?_, ?_⟩
  · have : ∀ r ∈ testRounds, checkRules r = true := by decide +kernel
    exact fun r hr => (checkRules_iff r).1 (this r hr)
  · exact ⟨testRound10, by simp [testRounds], 1, 130, by simp [testRound10]⟩

/-- C131: MahjongAI/data/sample/sample_haifu.xml is the log of a game of sixteen rounds, all of them played by the rules. -/
theorem C131_sample_game {pi : PyInt} (hpi : ReadsDecimals pi) :
    WrittenGame pi sampleLog sampleRounds ∧ (∀ r ∈ sampleRounds, PlayedByRules r) ∧ HasDiscard sampleRounds := by
  refine ⟨written_flat hpi (go := 169) (e := ⟨"GO", [("type", "169"), ("lobby", "0")]⟩) (by unfold Acceptable; decide)
    (by decide +kernel) (by decide +kernel) (by decide +kernel) (by decide +kernel) (by decide +kernel), ?_, ?_⟩
  · have : ∀ r ∈ sampleRounds, checkRules r = true := by decide +kernel
    exact fun r hr => (checkRules_iff r).1 (this r hr)
  · exact ⟨sampleRound15, by simp [sampleRounds], _, _, List.mem_of_getElem? (i := 1) rfl⟩

/-- C131: both are processed without an exception, round by round, whatever the helpers answer. -/
theorem C131_processed {pi : PyInt} (hpi : ReadsDecimals pi) {est : Estimate} {sh : List Int → Except PyErr Int}
    (he : ∀ q, RealHand q → ∃ b, est q = .ok b) (hs : ∀ l, RealConcealed l → ∃ n, sh l = .ok n) :
    (∃ ss, process pi est sh testLog = .ok ss ∧ ss.length = 11 ∧ GoodGame ss) ∧
    ∃ ss, process pi est sh sampleLog = .ok ss ∧ ss.length = 16 ∧ GoodGame ss := by
  obtain ⟨h1, h2, h3⟩ := C131_test_game hpi
  obtain ⟨h4, h5, h6⟩ := C131_sample_game hpi
  exact ⟨game_processed hpi he hs h1 h2 h3, game_processed hpi he hs h4 h5 h6⟩

/-- C131: and the models can be trained on them. -/
theorem C131_trained {pi : PyInt} (hpi : ReadsDecimals pi) {est : Estimate} {sh : List Int → Except PyErr Int}
    (he : ∀ q, RealHand q → ∃ b, est q = .ok b) (hs : ∀ l, RealConcealed l → ∃ n, sh l = .ok n) {n : Nat} (hn : 0 < n)
    (v : Variant) (step : Nat) :
    let content : Bool → Elem := fun b => if b then testLog else sampleLog
    ∃ r, epochLoop n ((epochBatches pi est sh content [false, true] n).map (batchLosses v))
      ((epochBatches pi est sh content [true, false] n).map (batchLosses v)) 0 step [] = .ok r := by
  intro content
  obtain ⟨h1, h2, h3⟩ := C131_test_game hpi
  obtain ⟨h4, h5, h6⟩ := C131_sample_game hpi
  have hall : ∀ f : Bool, (∃ rs, WrittenGame pi (content f) rs ∧ (∀ r ∈ rs, PlayedByRules r) ∧ HasDiscard rs) := by
    intro f
    cases f
    · exact ⟨_, h4, h5, h6⟩
    · exact ⟨_, h1, h2, h3⟩
  refine C123_epoch hpi he hs (content := content) (train := [true, false]) (val := [false, true]) ?_ ?_ hn v step
  · exact ⟨fun f _ => .inl (hall f), false, _, rfl, h4, h5, h6⟩
  · exact ⟨fun f _ => .inl (hall f), true, _, rfl, h1, h2, h3⟩

end MJ
