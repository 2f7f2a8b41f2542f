import Verif.Proofs.RoundInit
/-!
Concrete logs, used as witnesses.
-/
namespace MJ
open Code Spec

theorem accepted_exact {est : Estimate} {sh : List Int → Except PyErr Int} {g : GameInfo} {a : InitAttr}
    {evs : List Ev} {w : Bool} {sc : Except PyErr (List Int)} {s : RoundSt} {acts : List Act}
    (h : processRound est sh g a (evs ++ [.result w sc]) = .ok s) (ha : evs.map Ev.act = acts.map some) :
    ∃ c s0, initRound est sh g a = .ok (c, s0) ∧ Reached c s0 acts s := by
  obtain ⟨c, s0, acts', rest, h1, h2, h3, h4, h5⟩ := accepted_reached h
  have hlen : ((evs ++ [Ev.result w sc]).take acts'.length).length = acts'.length := by
    have := congrArg List.length h3
    simpa using this
  have hno : ∀ e ∈ (evs ++ [Ev.result w sc]).take acts'.length, ∃ x, e.act = some x := by
    intro e he
    have : e.act ∈ acts'.map some := by rw [← h3]; exact List.mem_map_of_mem he
    obtain ⟨x, _, hx⟩ := List.mem_map.1 this
    exact ⟨x, hx.symm⟩
  have hno' : ∀ e ∈ evs, ∃ x, e.act = some x := by
    intro e he
    have : e.act ∈ acts.map some := by rw [← ha]; exact List.mem_map_of_mem he
    obtain ⟨x, _, hx⟩ := List.mem_map.1 this
    exact ⟨x, hx.symm⟩
  have hn : acts'.length = evs.length := by
    rcases Nat.lt_trichotomy acts'.length evs.length with hlt | heq | hgt
    · exfalso
      rw [List.take_append_of_le_length (by omega)] at h2
      have h6 : evs.drop acts'.length ++ [Ev.result w sc] = rest := by
        have : evs.take acts'.length ++ (evs.drop acts'.length ++ [Ev.result w sc]) = evs.take acts'.length ++ rest := by
          rw [← h2, ← List.append_assoc, List.take_append_drop]
        exact List.append_cancel_left this
      have h7 : evs[acts'.length] ∈ rest := by
        rw [← h6]
        apply List.mem_append_left
        rw [List.mem_drop_iff_getElem]
        exact ⟨0, by omega, by simp⟩
      obtain ⟨w', sc', h8⟩ := h4 _ h7
      obtain ⟨x, hx⟩ := hno' evs[acts'.length] (List.getElem_mem _)
      rw [h8] at hx
      simp [Ev.act] at hx
    · exact heq
    · exfalso
      rw [List.take_of_length_le (by simp; omega)] at hno
      obtain ⟨x, hx⟩ := hno (Ev.result w sc) (by simp)
      simp [Ev.act] at hx
  rw [hn, List.take_append_of_le_length (Nat.le_refl _), List.take_length, ha] at h3
  have : acts = acts' := List.map_inj_right (fun x y h => by simpa using h) |>.1 h3
  subst this
  exact ⟨c, s0, h1, h5⟩

/-- a hand evaluator that never sees a win -/
def noWin : Estimate := fun _ => .ok false

/-- a shanten calculator for which nobody is ever close to winning -/
def farAway : List Int → Except PyErr Int := fun _ => .ok 3

/-- Player `p` is dealt copy `p` of the kinds 0..12; the first indicator is tile 132. -/
def deal : InitAttr :=
  { ten := .ok [250, 250, 250, 250], oya := .ok 0, seed := .ok [0, 0, 0, 0, 0, 132]
    hai := fun p => .ok ((List.range 13).map (fun i => 4 * i + p)) }

def dealt (p : Nat) : List Nat := (List.range 13).map (fun i => 4 * i + p)

theorem deal_deals : deal.Deals dealt 132 := ⟨fun _ _ => rfl, 0, 0, 0, 0, 0, rfl⟩

/-- Player 0 is dealt the four tiles of kind 0 and copies 0 of kinds 1..9; player `p > 0` copies `p`
of kinds 10..22; the first indicator is tile 132. -/
def dealKan : InitAttr :=
  { ten := .ok [250, 250, 250, 250], oya := .ok 0, seed := .ok [0, 0, 0, 0, 0, 132]
    hai := fun p => .ok (if p = 0 then [0, 1, 2, 3] ++ (List.range 9).map (fun i => 4 * (i + 1))
      else (List.range 13).map (fun i => 4 * (i + 10) + p)) }

def dealtKan (p : Nat) : List Nat :=
  if p = 0 then [0, 1, 2, 3] ++ (List.range 9).map (fun i => 4 * (i + 1))
  else (List.range 13).map (fun i => 4 * (i + 10) + p)

theorem dealKan_deals : dealKan.Deals dealtKan 132 := ⟨fun _ _ => rfl, 0, 0, 0, 0, 0, rfl⟩

/-- Player 0 draws tile 120, makes a closed kan of kind 0, the red five of the third suit is turned
as new indicator, player 0 draws and discards tile 121. -/
def kanLog : List Ev :=
  [.draw 0 (.ok 120), .naki (.ok 0) (.ok 0), .dora (.ok 88), .draw 0 (.ok 121), .discard 0 (.ok 121)]

def kanActs : List Act := [.draw 0 120, .call 0 0, .dora 88, .draw 0 121, .discard 0 121]

/-- the accepted result satisfies the test -/
def accepts (r : Except PyErr RoundSt) (f : RoundSt → Bool) : Bool :=
  match r with
  | .ok s => f s
  | .error _ => false

theorem accepts_ok {r : Except PyErr RoundSt} {f : RoundSt → Bool} (h : accepts r f = true) :
    ∃ s, r = .ok s ∧ f s = true := by
  cases r with
  | ok s => exact ⟨s, rfl, h⟩
  | error e => simp [accepts] at h

end MJ
