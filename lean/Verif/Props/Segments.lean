import Verif.Props.InvestEffects

/-! # C20: piecewise-linear relations -/

namespace Flix

/-- Whether the segments are switched on: always, by the created variable, or by the given variable. -/
def segmentSwitch (σ : Assignment) (el : String) : Outside → Nat → ℚ
  | .no, _ => 1
  | .create, t => σ (el ++ "__MultipleSegments_outside_segments") t
  | .use x, t => σ x.label t

theorem outsideTotal_eq (σ : Assignment) (el : String) (out : Outside) : outsideTotal el σ out = segmentSwitch σ el out := by
  funext t
  cases out <;> simp [outsideTotal, outsideVar, segmentSwitch, String.append_assoc]

variable {el : String} {L : Nat} {points : List (Var × List (Num × Num))} {out : Outside} {tree : MTree}

/-- C20, every solution: all coupled variables are zero and the switch is off, or the switch is on, exactly one segment is
selected and all variables lie at one common position of it. -/
theorem C20_sound (hlen : ∀ q ∈ points, q.1.length = L) (hfit : ∀ q ∈ points, ∀ s ∈ q.2, s.1.Fits L ∧ s.2.Fits L)
    (hL : L ≠ 0) (hout : ∀ x, out = .use x → x.length = L)
    (h : multipleSegments el L points out = .ok tree) {σ : Assignment} (hσ : tree.Solves σ)
    (hbin : ∀ x, out = .use x → ∀ t < L, σ x.label t = 0 ∨ σ x.label t = 1) :
    ∀ t < L, (segmentSwitch σ el out t = 0 ∧ ∀ q ∈ points, σ q.1.label t = 0) ∨
      (segmentSwitch σ el out t = 1 ∧ ∃ i, (∀ q ∈ points, i < q.2.length) ∧ OnSegment points (fun x => σ x.label t) t i ∧
        ∀ j, (∀ q ∈ points, j < q.2.length) → σ (segL el j "inSegment") t = (if j = i then 1 else 0)) := by
  obtain ⟨nr, ⟨q0, rest, hp, hnr⟩, hle, hiff⟩ := multiple_iff hlen hfit hL hout h
  obtain ⟨hr, hc⟩ := (hiff σ).1 hσ
  rw [outsideTotal_eq] at hr hc
  intro t ht
  have h01 : segmentSwitch σ el out t = 0 ∨ segmentSwitch σ el out t = 1 := by
    cases out with
    | no => right; rfl
    | create => exact hc rfl t ht
    | use x => exact hbin x rfl t ht
  rcases seg_sound hr hle ht h01 with ⟨h0, _, hz⟩ | ⟨h1, i, hi, hj, hon⟩
  · exact Or.inl ⟨h0, hz⟩
  · refine Or.inr ⟨h1, i, fun q hq => lt_of_lt_of_le hi (hle q hq), hon, fun j hj' => hj j ?_⟩
    rw [hnr]; exact hj' q0 (by rw [hp]; exact List.mem_cons_self)

theorem outside_not_seg {nr : Nat} : el ++ "__MultipleSegments_outside_segments" ∉ segLabels el nr := by
  have := not_segLabels_of (el := el) (p := "MultipleSegments") (y := "_outside_segments") (nr := nr) (n := 1) (by decide) (by decide) (by decide)
  rw [show "__MultipleSegments_outside_segments" = "__" ++ ("MultipleSegments" ++ "_outside_segments") by decide]
  simpa only [String.append_assoc] using this

/-- C20, converse: every common position on a segment (or zero while switched off) in each time step extends to a solution,
by choosing the variables of the segments only. -/
theorem C20_complete (hlen : ∀ q ∈ points, q.1.length = L) (hfit : ∀ q ∈ points, ∀ s ∈ q.2, s.1.Fits L ∧ s.2.Fits L)
    (hL : L ≠ 0) (hout : ∀ x, out = .use x → x.length = L)
    (h : multipleSegments el L points out = .ok tree)
    (hlab : ∀ q ∈ points, ∀ nr, q.1.label ∉ segLabels el nr) (hlab' : ∀ x, out = .use x → ∀ nr, x.label ∉ segLabels el nr)
    {σ : Assignment}
    (hpos : ∀ t < L, (segmentSwitch σ el out t = 0 ∧ ∀ q ∈ points, σ q.1.label t = 0) ∨
      (segmentSwitch σ el out t = 1 ∧ ∃ i, (∀ q ∈ points, i < q.2.length) ∧ OnSegment points (fun x => σ x.label t) t i)) :
    ∃ τ : Assignment, tree.Solves τ ∧ ∃ nr, ∀ l ∉ segLabels el nr, τ l = σ l := by
  obtain ⟨nr, ⟨q0, rest, hp, hnr⟩, hle, hiff⟩ := multiple_iff hlen hfit hL hout h
  obtain ⟨τ, h1, h2⟩ := seg_complete (el := el) (L := L) (nr := nr) (points := points) (total := segmentSwitch σ el out) (σ := σ)
    (fun q hq => hlab q hq nr) (by
      intro t ht
      rcases hpos t ht with h | ⟨h, i, hi, hon⟩
      · exact Or.inl h
      · refine Or.inr ⟨h, i, ?_, hon⟩
        rw [hnr]; exact hi q0 (by rw [hp]; exact List.mem_cons_self))
  have he : segmentSwitch τ el out = segmentSwitch σ el out := by
    funext t
    cases out with
    | no => rfl
    | create => simp only [segmentSwitch]; rw [h1 _ outside_not_seg]
    | use x => simp only [segmentSwitch]; rw [h1 _ (hlab' x rfl nr)]
  refine ⟨τ, (hiff τ).2 ⟨?_, ?_⟩, nr, h1⟩
  · rw [outsideTotal_eq, he]; exact h2
  · intro _ t ht
    rw [outsideTotal_eq, he]
    rcases hpos t ht with h | ⟨h, _⟩
    · exact Or.inl h.1
    · exact Or.inr h

/-- Two variables on two segments with a gap, over three steps, with time-dependent ends. -/
def exPoints : List (Var × List (Num × Num)) :=
  [({ label := "fuel", length := 3 }, [(.s 1, .s 2), (.v [5, 5, 6], .s 10)]),
   ({ label := "heat", length := 3 }, [(.s 1, .s (3 / 2)), (.s 4, .v [8, 9, 9])])]

/-- The hypotheses are met, and there is a solution with the variables at different segments and switched off. -/
theorem exPoints_solvable : ∃ tree τ, multipleSegments "conv" 3 exPoints .create = .ok tree ∧ tree.Solves τ ∧
    τ "fuel" 0 = 3 / 2 ∧ τ "fuel" 1 = 10 ∧ τ "heat" 1 = 9 ∧ τ "heat" 2 = 0 := by
  obtain ⟨tree, ht⟩ : ∃ tree, multipleSegments "conv" 3 exPoints .create = .ok tree := ⟨_, rfl⟩
  have hl : ∀ s : String, (s.toList.take 4 ≠ "conv".toList) → 4 ≤ s.toList.length → ∀ nr, s ∉ segLabels "conv" nr := by
    intro s hs hs' nr hm
    obtain ⟨i, _, k, _, he⟩ := mem_segLabels.1 hm
    unfold segL at he
    rw [he] at hs
    apply hs
    simp only [String.append_assoc, String.toList_append]
    rfl
  obtain ⟨τ, h1, nr, h2⟩ := C20_complete (σ := fun l t =>
      if l = "fuel" then (if t = 0 then 3 / 2 else if t = 1 then 10 else 0)
      else if l = "heat" then (if t = 0 then 5 / 4 else if t = 1 then 9 else 0)
      else (if t = 2 then 0 else 1)) (by simp [exPoints])
    (by unfold exPoints; simp only [List.forall_mem_cons]; simp [Num.Fits, Num.len, Num.isScalar]) (by norm_num) (by simp) ht
    (by
      intro q hq
      simp only [exPoints, List.mem_cons, List.not_mem_nil, or_false] at hq
      rcases hq with rfl | rfl <;> exact hl _ (by decide) (by decide)) (by simp)
    (by
      intro t ht
      rcases (show t = 0 ∨ t = 1 ∨ t = 2 by omega) with rfl | rfl | rfl
      · right
        refine ⟨by simp [segmentSwitch, show ¬ ("conv" ++ "__MultipleSegments_outside_segments" = "fuel") by decide,
          show ¬ ("conv" ++ "__MultipleSegments_outside_segments" = "heat") by decide], 0, by simp [exPoints], 1 / 2, by norm_num, by norm_num, ?_⟩
        simp [exPoints, between]; norm_num
      · right
        refine ⟨by simp [segmentSwitch, show ¬ ("conv" ++ "__MultipleSegments_outside_segments" = "fuel") by decide,
          show ¬ ("conv" ++ "__MultipleSegments_outside_segments" = "heat") by decide], 1, by simp [exPoints], 1, by norm_num, by norm_num, ?_⟩
        simp [exPoints, between, Num.at]
      · left
        simp [segmentSwitch, show ¬ ("conv" ++ "__MultipleSegments_outside_segments" = "fuel") by decide,
          show ¬ ("conv" ++ "__MultipleSegments_outside_segments" = "heat") by decide, exPoints])
  refine ⟨tree, τ, ht, h1, ?_, ?_, ?_, ?_⟩
  · rw [h2 _ (hl _ (by decide) (by decide) _)]; simp
  · rw [h2 _ (hl _ (by decide) (by decide) _)]; simp
  · rw [h2 _ (hl _ (by decide) (by decide) _)]; simp
  · rw [h2 _ (hl _ (by decide) (by decide) _)]; simp

end Flix
