import Verif.Props.Printing
import Verif.Proofs.Concrete
/-!
The output of `process` with `verbose=True`.
-/
namespace MJ.Printing
open Spec

/-- what is printed for an event that is a result -/
def resultText : Ev → Option Text
  | .result agari (.ok sc) => some (result agari sc)
  | _ => none

/-- the lines `B` are those for a round, given by its events, that ended in state `s` -/
def Block (arr : Arrays) (pi : PyInt) (g : GameInfo) (round : List Item) (s : RoundSt) (B : List Text) : Prop :=
  ∃ i rest scores oya r h k x y d, round = i :: rest ∧ (toInit pi i).ten = .ok scores ∧
    (toInit pi i).seed = .ok [r, h, k, x, y, d] ∧ i.get "oya" = .ok oya ∧
    B = header g scores oya.toList r h k ++
      [lit "len(turns): 0", list ((rest.map (toEv pi)).filterMap resultText), lit "remaining_tiles: " ++ arr.tiles s.remaining_tiles,
        lit "player hands: " ++ arr.hands s.hand_tensors]

theorem init_attr {est : Estimate} {sh : List Int → Except PyErr Int} {g : GameInfo} {a : InitAttr} {x : RoundCfg × RoundSt}
    (h : initRound est sh g a = .ok x) : ∃ scores parent r hb k u v d, a.ten = .ok scores ∧ a.oya = .ok parent ∧
      a.seed = .ok [r, hb, k, u, v, d] := by
  unfold initRound at h
  cases h1 : a.ten with
  | error e => rw [h1] at h; cases h
  | ok scores =>
    cases h2 : a.oya with
    | error e => rw [h1, h2] at h; cases h
    | ok parent =>
      rw [h1, h2] at h
      cases h3 : checkSeat parent with
      | error e => simp only [h3, bind, Except.bind] at h; cases h
      | ok _ =>
        cases h4 : a.seed with
        | error e => simp only [h3, h4, bind, Except.bind] at h; cases h
        | ok seed =>
          cases h5 : unpackSeed seed with
          | error e => simp only [h3, h4, h5, bind, Except.bind] at h; cases h
          | ok t =>
            unfold unpackSeed at h5
            split at h5
            · next r hb k u v d => exact ⟨scores, parent, r, hb, k, u, v, d, rfl, rfl, rfl⟩
            · cases h5

theorem nat_get {pi : PyInt} {i : Item} {key : String} {n : Nat} (h : i.nat pi key = .ok n) : ∃ v, i.get key = .ok v := by
  unfold Item.nat at h
  cases hg : i.get key with
  | ok v => exact ⟨v, rfl⟩
  | error e => rw [hg] at h; cases h

theorem results_filterMap : ∀ {rest : List Ev}, checkResults rest = .ok () → results rest = rest.filterMap resultText := by
  intro rest
  induction rest with
  | nil => intro _; rfl
  | cons e es ih =>
    intro h
    cases e with
    | result a sc =>
      cases sc with
      | ok sc =>
        have : checkResults es = .ok () := h
        show result a sc :: results es = result a sc :: es.filterMap resultText
        rw [ih this]
      | error e => cases h
    | _ => cases h

theorem run_results {c : RoundCfg} : ∀ {evs : List Ev} {s s' : RoundSt} {rest : List Ev},
    runEvents c evs s = .ok (s', some rest) → evs.filterMap resultText = rest.filterMap resultText := by
  intro evs
  induction evs with
  | nil => intro s s' rest h; cases h
  | cons e es ih =>
    intro s s' rest h
    cases e with
    | result a sc =>
      simp only [runEvents] at h
      cases h
      rfl
    | _ =>
      rw [List.filterMap_cons_none rfl]
      simp only [runEvents, bind, Except.bind] at h
      split at h
      · cases h
      · exact ih h

theorem verboseRound_same (arr : Arrays) (est : Estimate) (sh : List Int → Except PyErr Int) (g : GameInfo) (a : InitAttr)
    (oya : Text) (evs : List Ev) : (verboseRound arr est sh g a oya evs).2 = processRound est sh g a evs := by
  unfold verboseRound processRound
  cases initRound est sh g a with
  | error e => rfl
  | ok x =>
    obtain ⟨c, s⟩ := x
    dsimp only [bind, Except.bind]
    cases runEvents c evs s with
    | error e => rfl
    | ok y =>
      obtain ⟨s', r⟩ := y
      cases r with
      | none => rfl
      | some rest =>
        dsimp only
        cases checkResults rest with
        | error e => rfl
        | ok u => rfl

theorem verboseRound_block {arr : Arrays} {pi : PyInt} {est : Estimate} {sh : List Int → Except PyErr Int} {g : GameInfo}
    {i : Item} {rest : List Item} {s : RoundSt} {said : List Text}
    (h : verboseRound arr est sh g (toInit pi i) (oyaText i) (rest.map (toEv pi)) = (said, .ok s)) :
    Block arr pi g (i :: rest) s said := by
  unfold verboseRound at h
  cases h1 : initRound est sh g (toInit pi i) with
  | error e => rw [h1] at h; cases h
  | ok x =>
    obtain ⟨c, s0⟩ := x
    rw [h1] at h
    dsimp only at h
    obtain ⟨scores, parent, r, hb, k, u, v, d, a1, a2, a3⟩ := init_attr h1
    obtain ⟨oya, ho⟩ := nat_get (show i.nat pi "oya" = .ok parent from a2)
    cases h2 : runEvents c (rest.map (toEv pi)) s0 with
    | error e => rw [h2] at h; cases h
    | ok y =>
      obtain ⟨s', q⟩ := y
      rw [h2] at h
      cases q with
      | none => cases h
      | some q =>
        dsimp only at h
        cases h3 : checkResults q with
        | error e => rw [h3] at h; cases h
        | ok w =>
          rw [h3] at h
          dsimp only at h
          rw [Prod.mk.injEq] at h
          obtain ⟨h4, h5⟩ := h
          have hs : s' = s := by
            cases hf : finalOk s' with
            | false => rw [hf] at h5; cases h5
            | true => rw [hf] at h5; cases h5; rfl
          subst hs
          refine ⟨i, rest, scores, oya, r, hb, k, u, v, d, rfl, a1, a3, ho, ?_⟩
          rw [← h4, run_results h2, ← results_filterMap h3]
          have e1 : headerOf g (toInit pi i) (oyaText i) = header g scores oya.toList r hb k := by
            unfold headerOf oyaText
            rw [a1, a3, ho]
          rw [e1]
          unfold footer
          dsimp only
          rw [show lit "len(turns): " ++ decimal ([] : List HalfTurn).length = lit "len(turns): 0" by decide +kernel]

theorem verboseRounds_same (arr : Arrays) (pi : PyInt) (est : Estimate) (sh : List Int → Except PyErr Int) (g : GameInfo) :
    ∀ rounds, (verboseRounds arr pi est sh g rounds).2 = rounds.mapM (runRound pi est sh g) := by
  intro rounds
  induction rounds with
  | nil => rfl
  | cons r rounds ih =>
    cases r with
    | nil => rfl
    | cons i rest =>
      rw [List.mapM_cons]
      unfold verboseRounds runRound
      by_cases ht : i.tag = "INIT"
      · simp only [if_pos ht]
        have := verboseRound_same arr est sh g (toInit pi i) (oyaText i) (rest.map (toEv pi))
        rw [← this]
        cases hv : verboseRound arr est sh g (toInit pi i) (oyaText i) (rest.map (toEv pi)) with
        | mk said out =>
          cases out with
          | error e => rfl
          | ok s =>
            dsimp only
            show _ = (do let l ← rounds.mapM (runRound pi est sh g); return s :: l)
            rw [← ih]
            cases verboseRounds arr pi est sh g rounds with
            | mk more out' =>
              cases out' with
              | error e => rfl
              | ok l => rfl
      · simp only [if_neg ht]
        rfl

end MJ.Printing

namespace MJ
open Printing Spec

/-- C163: `verbose` changes nothing in what is returned or raised. -/
theorem C163_same (arr : Arrays) (pi : PyInt) (est : Estimate) (sh : List Int → Except PyErr Int) (root : Elem) :
    (verboseProcess arr pi est sh root).2 = process pi est sh root := by
  unfold verboseProcess process
  cases getRounds pi root with
  | error e => rfl
  | ok x =>
    obtain ⟨g, rounds⟩ := x
    dsimp only [bind, Except.bind]
    by_cases h1 : g.against_human ≠ 1
    · simp only [if_pos h1]; rfl
    · by_cases h2 : g.no_red = 1
      · simp only [if_neg h1, if_pos h2]; rfl
      · by_cases h3 : g.kansaki = 1
        · simp only [if_neg h1, if_neg h2, if_pos h3]; rfl
        · by_cases h4 : g.three_players = 1
          · simp only [if_neg h1, if_neg h2, if_neg h3, if_pos h4]; rfl
          · simp only [if_neg h1, if_neg h2, if_neg h3, if_neg h4]
            exact verboseRounds_same arr pi est sh g rounds

theorem Printing.rounds_blocks {arr : Arrays} {pi : PyInt} {est : Estimate} {sh : List Int → Except PyErr Int} {g : GameInfo} :
    ∀ {rounds said l}, verboseRounds arr pi est sh g rounds = (said, .ok l) →
      ∃ Bs : List (List Text), said = Bs.flatten ∧ Bs.length = rounds.length ∧ l.length = rounds.length ∧
        ∀ n (hn : n < rounds.length) B s, Bs[n]? = some B → l[n]? = some s → Block arr pi g rounds[n] s B := by
  intro rounds
  induction rounds with
  | nil =>
    intro said l h
    cases h
    exact ⟨[], rfl, rfl, rfl, fun n hn => absurd hn (Nat.not_lt_zero n)⟩
  | cons r rounds ih =>
    intro said l h
    cases r with
    | nil => cases h
    | cons i rest =>
      unfold verboseRounds at h
      by_cases ht : i.tag = "INIT"
      · simp only [if_pos ht] at h
        cases hv : verboseRound arr est sh g (toInit pi i) (oyaText i) (rest.map (toEv pi)) with
        | mk sd out =>
          rw [hv] at h
          cases out with
          | error e => cases h
          | ok s =>
            dsimp only at h
            cases hw : verboseRounds arr pi est sh g rounds with
            | mk more out' =>
              rw [hw] at h
              cases out' with
              | error e => cases h
              | ok l' =>
                cases h
                obtain ⟨Bs, b1, b2, b3, b4⟩ := ih hw
                refine ⟨sd :: Bs, by rw [b1]; rfl, by simp [b2], by simp [b3], ?_⟩
                intro n hn B s' hB hs
                cases n with
                | zero =>
                  cases hB
                  cases hs
                  exact verboseRound_block hv
                | succ n => exact b4 n (by simpa using hn) B s' hB hs
      · simp only [if_neg ht] at h
        cases h

/-- C163: for a game that is processed, the lines for each round are printed in order: scores, parent, number of the
round, sticks, remaining rounds as they are in the log, then the results with the numbers of the log, one for each
result of the round, and the tiles at the end of the round. -/
theorem C163_lines {arr : Arrays} {pi : PyInt} {est : Estimate} {sh : List Int → Except PyErr Int} {root : Elem}
    {l : List RoundSt} (h : process pi est sh root = .ok l) :
    ∃ g rounds, getRounds pi root = .ok (g, rounds) ∧ ∃ Bs : List (List Text),
      (verboseProcess arr pi est sh root).1 = Bs.flatten ∧ Bs.length = rounds.length ∧ l.length = rounds.length ∧
        ∀ n (hn : n < rounds.length) B s, Bs[n]? = some B → l[n]? = some s → Block arr pi g rounds[n] s B := by
  have hs := C163_same arr pi est sh root
  rw [h] at hs
  cases hg : getRounds pi root with
  | error e => unfold process at h; rw [hg] at h; cases h
  | ok x =>
    obtain ⟨g, rounds⟩ := x
    refine ⟨g, rounds, rfl, ?_⟩
    unfold verboseProcess at hs ⊢
    rw [hg] at hs ⊢
    dsimp only at hs ⊢
    split at hs
    · cases hs
    · split at hs
      · cases hs
      · split at hs
        · cases hs
        · split at hs
          · cases hs
          · rename_i h1 h2 h3 h4
            simp only [if_neg h1, if_neg h2, if_neg h3, if_neg h4]
            exact rounds_blocks (Prod.ext rfl hs)

/-- C163: a round begun is announced, whatever happens in it; nothing is printed for a round whose first event cannot be
read. -/
theorem C163_announced (arr : Arrays) (est : Estimate) (sh : List Int → Except PyErr Int) (g : GameInfo) (a : InitAttr)
    (oya : Text) (evs : List Ev) :
    (∃ e, initRound est sh g a = .error e ∧ (verboseRound arr est sh g a oya evs).1 = []) ∨
    (∃ x, initRound est sh g a = .ok x ∧ headerOf g a oya <+: (verboseRound arr est sh g a oya evs).1 ∧
      (headerOf g a oya).length = 8) := by
  cases h1 : initRound est sh g a with
  | error e =>
    refine .inl ⟨e, rfl, ?_⟩
    unfold verboseRound
    rw [h1]
  | ok x =>
    obtain ⟨c, s0⟩ := x
    obtain ⟨scores, parent, r, hb, k, u, v, d, a1, a2, a3⟩ := init_attr h1
    refine .inr ⟨_, rfl, ?_, ?_⟩
    · unfold verboseRound
      rw [h1]
      dsimp only
      split
      · exact List.prefix_refl _
      · exact List.prefix_refl _
      · split
        · exact List.prefix_refl _
        · exact List.prefix_append _ _
    · unfold headerOf
      rw [a1, a3]
      rfl

/-- C163 fails for the number of half-turns: it is always given as 0, since nothing is ever added to the list that is
counted; here after a round with one half-turn. -/
theorem C163_turns_violated (arr : Arrays) : ∃ a evs s,
    (verboseRound arr noWin farAway ⟨0⟩ a (lit "0") evs).2 = .ok s ∧ s.halfturns.length = 1 ∧
    (verboseRound arr noWin farAway ⟨0⟩ a (lit "0") evs).1[8]? = some (lit "len(turns): 0") := by
  have hf : accepts (processRound noWin farAway ⟨0⟩ deal [.draw 0 (.ok 120), .result false (.ok [])])
      (fun s => s.halfturns.length == 1) = true := by decide +kernel
  obtain ⟨s, hs, hl⟩ := accepts_ok hf
  refine ⟨deal, [.draw 0 (.ok 120), .result false (.ok [])], s, ?_, by simpa using hl, ?_⟩
  · rw [verboseRound_same]
    exact hs
  · unfold processRound at hs
    unfold verboseRound
    cases h1 : initRound noWin farAway ⟨0⟩ deal with
    | error e => rw [h1] at hs; cases hs
    | ok x =>
      obtain ⟨c, s0⟩ := x
      rw [h1] at hs
      dsimp only [bind, Except.bind] at hs ⊢
      cases h2 : runEvents c [.draw 0 (.ok 120), .result false (.ok [])] s0 with
      | error e => rw [h2] at hs; cases hs
      | ok y =>
        obtain ⟨s', q⟩ := y
        rw [h2] at hs
        cases q with
        | none => cases hs
        | some q =>
          dsimp only at hs ⊢
          cases h3 : checkResults q with
          | error e => rw [h3] at hs; cases hs
          | ok w =>
            show some (lit "len(turns): " ++ decimal 0) = _
            rw [show lit "len(turns): " ++ decimal 0 = lit "len(turns): 0" by decide +kernel]

/-- non-vacuity: a chi, and the half-turn after a draw -/
example : naki ⟨0x1C2F, 0x1C2F⟩ = .ok (lit "Chi: 69") ∧
    reachDecision ⟨2, true⟩ = lit "ReachDecision: player=2, executed=True" ∧
    result true [250, -10] = lit "AgariResult: sc=[250, -10]" ∧
    gameInfo ⟨169⟩ = lit "GameInfo: against_human=1, no_red=0, kansaki=0, tonnan=1, three_players=0, fast=0, level=5" := by
  decide +kernel

end MJ
