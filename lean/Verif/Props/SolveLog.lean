import Verif.Model.SolveLog
import Verif.Spec.Shown
import Verif.Props.MainResults
import Verif.Props.AggFull
import Verif.Lemmas.Report

/-!
# C122: the log of a calculation shows its main results
-/

namespace Flix

variable {sys : Sys} {s : System} {o : SysOut}

theorem repeated_toList (c : Char) (n : Nat) : (repeated c n).toList = List.replicate n c := by simp [repeated]

theorem digit_read {m : Nat} (h : m < 100) (init : Nat) : Nat.ofDigitChars 10 [Nat.digitChar (m / 10), Nat.digitChar (m % 10)] init = 100 * init + m := by
  rw [Nat.ofDigitChars_cons_digitChar_of_lt_ten (by omega), Nat.ofDigitChars_cons_digitChar_of_lt_ten (by omega), Nat.ofDigitChars_nil]
  omega

theorem digit_isDigit {m : Nat} (h : m < 10) : (Nat.digitChar m).isDigit = true := by
  interval_cases m <;> decide

theorem digits_no_dash (n : Nat) : '-' ∉ Nat.toDigits 10 n := fun h => by
  have := Nat.isDigit_of_mem_toDigits (by decide) (by decide) h
  exact absurd this (by decide)

/-- Reading back what `.2f` writes. -/
theorem read_fixed2 (x : ℚ) : readNumber (fixed2 x) = (if x < 0 then -1 else 1) * (pyRound (|x| * 100) : ℚ) / 100 := by
  have hn : 0 ≤ pyRound (|x| * 100) := pyRound_nonneg (by positivity)
  have hm : (pyRound (|x| * 100)).toNat % 100 < 100 := Nat.mod_lt _ (by decide)
  have hcast : ((pyRound (|x| * 100)).toNat : ℚ) = (pyRound (|x| * 100) : ℚ) := by
    have := Int.toNat_of_nonneg hn
    exact_mod_cast this
  rw [← hcast]
  unfold readNumber fixed2
  generalize (pyRound (|x| * 100)).toNat = n at hm
  have hd1 : (Nat.digitChar (n % 100 / 10)).isDigit = true := digit_isDigit (by omega)
  have hd2 : (Nat.digitChar (n % 100 % 10)).isDigit = true := digit_isDigit (by omega)
  have nd : ∀ c : Char, c.isDigit = true → '-' ≠ c := by rintro c hc rfl; exact absurd hc (by decide)
  have hdig : (Nat.toDigits 10 (n / 100)).filter Char.isDigit = Nat.toDigits 10 (n / 100) :=
    List.filter_eq_self.2 fun c hc => Nat.isDigit_of_mem_toDigits (by decide) (by decide) hc
  have htext : (Nat.repr (n / 100) ++ "." ++ String.ofList [Nat.digitChar (n % 100 / 10), Nat.digitChar (n % 100 % 10)]).toList =
      Nat.toDigits 10 (n / 100) ++ ['.'] ++ [Nat.digitChar (n % 100 / 10), Nat.digitChar (n % 100 % 10)] := by
    simp only [String.toList_append, Nat.toList_repr, String.toList_ofList]
    rfl
  have hval : Nat.ofDigitChars 10 ((Nat.toDigits 10 (n / 100) ++ ['.'] ++ [Nat.digitChar (n % 100 / 10), Nat.digitChar (n % 100 % 10)]).filter Char.isDigit) 0 = n := by
    rw [List.filter_append, List.filter_append, hdig, List.filter_cons_of_pos hd1, List.filter_cons_of_pos hd2]
    rw [show List.filter Char.isDigit ['.'] = [] by decide, List.append_nil, List.filter_nil, Nat.ofDigitChars_append, Nat.ofDigitChars_ten_toDigits, digit_read hm]
    omega
  have hno : '-' ∉ Nat.toDigits 10 (n / 100) ++ ['.'] ++ [Nat.digitChar (n % 100 / 10), Nat.digitChar (n % 100 % 10)] := by
    simp only [List.mem_append, List.mem_cons, List.not_mem_nil, or_false, not_or]
    exact ⟨⟨digits_no_dash _, by decide⟩, nd _ hd1, nd _ hd2⟩
  by_cases hx : x < 0
  · simp only [if_pos hx]
    rw [String.append_assoc, String.append_assoc, String.toList_append, ← String.append_assoc, htext]
    rw [show ("-" : String).toList = ['-'] from rfl, if_pos (by simp), List.filter_append, show List.filter Char.isDigit ['-'] = [] by decide, List.nil_append, hval]
  · simp only [if_neg hx]
    rw [String.append_assoc, String.append_assoc, String.toList_append, ← String.append_assoc, htext]
    rw [show ("" : String).toList = [] from rfl, List.nil_append, if_neg hno, hval]

theorem read_padLeft (w : Nat) (t : String) : readNumber (padLeft w t) = readNumber t := by
  have : ∀ k, (List.replicate k ' ').filter Char.isDigit = [] := fun k => List.filter_eq_nil_iff.2 fun c hc => by
    rw [(List.mem_replicate.1 hc).2]; decide
  unfold readNumber padLeft
  rw [String.toList_append, repeated_toList, List.filter_append, this, List.nil_append]
  simp only [List.mem_append, List.mem_replicate]
  simp

/-- **C122 (numbers).**  What is shown of a number differs from it by at most half a hundredth. -/
theorem C122_number (x : ℚ) : ShowsNumber (format2 x) x := by
  constructor
  · unfold format2
    rw [read_padLeft, read_fixed2]
    have h := (C50_round (|x| * 100)).1
    generalize (pyRound (|x| * 100) : ℚ) = r at h
    rw [abs_le] at h ⊢
    by_cases hx : x < 0
    · rw [if_pos hx]
      rw [abs_of_neg hx] at h
      constructor <;> linarith [h.1, h.2]
    · rw [if_neg hx]
      rw [abs_of_nonneg (not_lt.1 hx)] at h
      constructor <;> linarith [h.1, h.2]
  · unfold format2 padLeft
    rw [String.toList_append, List.length_append, repeated_toList, List.length_replicate]
    omega

/-- **C122 (order).**  Sorted by value, the entries are those given, larger values come first, and entries of equal value keep their order. -/
theorem C122_order (lower : String → String) (d : List (String × ℚ)) : (sortEntries lower .value d).Perm d ∧ (sortEntries lower .value d).Pairwise (fun a b => b.2 ≤ a.2) ∧
    ∀ a b, b.2 ≤ a.2 → [a, b].Sublist d → [a, b].Sublist (sortEntries lower .value d) := by
  have ht : ∀ a b c : String × ℚ, decide (b.2 ≤ a.2) = true → decide (c.2 ≤ b.2) = true → decide (c.2 ≤ a.2) = true := by
    intro a b c h1 h2
    simp only [decide_eq_true_eq] at *
    exact h2.trans h1
  have hl : ∀ a b : String × ℚ, (decide (b.2 ≤ a.2) || decide (a.2 ≤ b.2)) = true := by
    intro a b
    simpa using le_total b.2 a.2
  refine ⟨List.mergeSort_perm _ _, ?_, fun a b hab hs => ?_⟩
  · refine (List.pairwise_mergeSort ht hl d).imp fun {a b} h => by simpa using h
  · exact List.pair_sublist_mergeSort ht hl (by simpa using hab) hs

/-- **C122 (order of keys).**  Sorted by key, the entries are those given, in the order of their keys in lower case. -/
theorem C122_keys (lower : String → String) (d : List (String × ℚ)) : (sortEntries lower .key d).Perm d ∧ (sortEntries lower .key d).Pairwise (fun a b => lower a.1 ≤ lower b.1) := by
  refine ⟨List.mergeSort_perm _ _, ?_⟩
  refine (List.pairwise_mergeSort (le := fun a b : String × ℚ => decide (lower a.1 ≤ lower b.1)) ?_ ?_ d).imp fun {a b} h => by simpa using h
  · intro a b c h1 h2
    simp only [decide_eq_true_eq] at *
    exact String.le_trans h1 h2
  · intro a b
    simpa using String.le_total (lower a.1) (lower b.1)

/-- The size found for an element. -/
def foundSize (σ : Assignment) (l : String) : ℚ := σ (l ++ "__" ++ "Investment" ++ "_" ++ "size") 0

/-- **C122.**  After solving, the log shows operation, investment and sum of every listed effect, what excess costs in total and the objective, each rounded to hundredths; one line for every
element with a size to be found, the largest size first; and a warning for a bus exactly if its excess supply or demand exceeds 1/1000 in total. -/
theorem C122 (hv : sys.Valid) (hn : sys.n ≠ 0) (hf : s.Fits sys.n) (h : systemModel sys s = .ok o) {unit : String → String} {σ : Assignment} (hs : o.solver.Solves σ)
    {r : MainResults} (hr : mainResults sys unit σ s o = .ok r) (lower : String → String) (repr : ℚ → String) (thr : ℚ) :
    (∀ q ∈ r.effects, ∃ a b c, ShowsNumber a q.2.operation ∧ ShowsNumber b q.2.invest ∧ ShowsNumber c q.2.sum ∧
      (MsgLevel.info, q.1 ++ ":\n  operation      : " ++ a ++ "\n  invest         : " ++ b ++ "\n  sum            : " ++ c) ∈ solveLog lower repr thr r) ∧
    (∃ a b line, ShowsNumber a (s.buses.map fun b => b.penaltyCost sys σ).sum ∧ ShowsNumber b r.objective ∧
      (MsgLevel.info, "Penalty          : " ++ a ++ "\n" ++ line ++ "\nObjective        : " ++ b ++ "\n" ++ line) ∈ solveLog lower repr thr r) ∧
    (∃ ls lines : List String, ls.Perm (s.comps.flatMap Comp.investLabels) ∧ ls.Pairwise (fun a b => foundSize σ b ≤ foundSize σ a) ∧
      List.Forall₂ (fun l line => ∃ pad num, line = "  " ++ l ++ pad ++ ": " ++ num ∧ Blank pad ∧ ShowsNumber num (foundSize σ l)) ls lines ∧
      (MsgLevel.info, "\n".intercalate lines) ∈ solveLog lower repr thr r) ∧
    ∀ l, (MsgLevel.warning, "A penalty occurred in Bus \"" ++ l ++ "\"!") ∈ solveLog lower repr thr r ↔ ∃ b ∈ s.buses, b.label = l ∧ b.excessPenalty.isSome = true ∧
      (1 / 1000 < ∑ t ∈ Finset.range sys.n, σ (b.label ++ "_" ++ "excess_input") t ∨ 1 / 1000 < ∑ t ∈ Finset.range sys.n, σ (b.label ++ "_" ++ "excess_output") t) := by
  obtain ⟨r', e, hr', he, hpen, hobj, hb, hnd, hi, hni⟩ := C75 hv hn hf h unit hs
  rw [hr] at hr'
  cases hr'
  refine ⟨fun q hq => ?_, ?_, ?_, fun l => ?_⟩
  · refine ⟨format2 q.2.operation, format2 q.2.invest, format2 q.2.sum, C122_number _, C122_number _, C122_number _, ?_⟩
    have : (MsgLevel.info, q.1 ++ ":\n  operation      : " ++ format2 q.2.operation ++ "\n  invest         : " ++ format2 q.2.invest ++ "\n  sum            : " ++ format2 q.2.sum) =
        (MsgLevel.info, effectMessage q) := by
      unfold effectMessage
      rw [show padRight 15 "operation" = "operation      " by decide +kernel, show padRight 15 "invest" = "invest         " by decide +kernel, show padRight 15 "sum" = "sum            " by decide +kernel]
      refine Prod.ext rfl (String.ext ?_)
      simp only [String.toList_append, List.append_assoc]
      rfl
    rw [this]
    exact List.mem_append_left _ (List.mem_append_left _ (List.mem_append_left _ (List.mem_map.2 ⟨q, hq, rfl⟩)))
  · refine ⟨format2 r.penalty, format2 r.objective, repeated '-' 80, by rw [← hpen]; exact C122_number _, C122_number _, ?_⟩
    have : (MsgLevel.info, "Penalty          : " ++ format2 r.penalty ++ "\n" ++ repeated '-' 80 ++ "\nObjective        : " ++ format2 r.objective ++ "\n" ++ repeated '-' 80) =
        (MsgLevel.info, totalMessage r) := by
      unfold totalMessage
      rw [show padRight 17 "Penalty" = "Penalty          " by decide +kernel, show padRight 17 "Objective" = "Objective        " by decide +kernel]
      refine Prod.ext rfl (String.ext ?_)
      simp only [String.toList_append, List.append_assoc]
      rfl
    rw [this]
    refine List.mem_append_left _ (List.mem_append_left _ (List.mem_append_right _ ?_))
    simp
  · let L := s.comps.flatMap Comp.investLabels
    let f : String → String × ℚ := fun l => (l, foundSize σ l)
    let M := L.filter (fun l => decide (1 / 1000 < foundSize σ l)) ++ L.filter fun l => decide (¬ 1 / 1000 < foundSize σ l)
    have hM : M.Perm L := by
      have := List.filter_append_perm (fun l => decide (1 / 1000 < foundSize σ l)) L
      simpa only [M, decide_not] using this
    have hd : pyUpdate (pyUpdate [] r.invested) r.notInvested = M.map f := by
      have e1 : r.invested ++ r.notInvested = M.map f := by
        rw [hi, hni, List.map_append]
        rfl
      have nd : ((r.invested ++ r.notInvested).map (·.1)).Nodup := by
        rw [e1, List.map_map]
        simpa [f, Function.comp_def] using hM.nodup_iff.2 hnd
      rw [pyUpdate_nil_new (by rw [List.map_append] at nd; exact (List.nodup_append.1 nd).1), pyUpdate_new nd, e1]
    obtain ⟨p1, p2, _⟩ := C122_order lower (M.map f)
    have hsort : sortEntries lower .value (M.map f) = ((sortEntries lower .value (M.map f)).map (·.1)).map f := by
      rw [List.map_map]
      refine (List.map_id _).symm.trans (List.map_congr_left fun q hq => ?_)
      obtain ⟨l, _, rfl⟩ := List.mem_map.1 (p1.mem_iff.1 hq)
      rfl
    refine ⟨(sortEntries lower .value (M.map f)).map (·.1), (sortEntries lower .value (M.map f)).map (formatLine 30 2), ?_, ?_, ?_, ?_⟩
    · refine (p1.map _).trans ?_
      rw [List.map_map]
      simpa [f, Function.comp_def] using hM
    · rw [hsort] at p2
      rw [List.pairwise_map] at p2
      exact p2
    · rw [List.forall₂_map_left_iff, List.forall₂_map_right_iff, List.forall₂_same]
      intro q hq
      obtain ⟨l, _, rfl⟩ := List.mem_map.1 (p1.mem_iff.1 hq)
      refine ⟨repeated ' ' (30 - l.toList.length), format2 (foundSize σ l), ?_, fun c hc => ?_, C122_number _⟩
      · unfold formatLine padRight
        rw [show repeated ' ' 2 = "  " by decide +kernel]
        simp only [f, String.append_assoc]
      · rw [repeated_toList] at hc
        exact (List.mem_replicate.1 hc).2
    · refine List.mem_append_left _ (List.mem_append_left _ (List.mem_append_right _ ?_))
      simp only [List.mem_cons, List.not_mem_nil, or_false]
      refine .inr (.inr ?_)
      unfold decisionMessage applyFormating
      rw [hd]
  · have hw := (C75_warnings hv hn hf h hs hr thr).2 l
    rw [← hw]
    unfold solveLog
    simp only [List.mem_append, List.mem_map, Prod.mk.injEq, reduceCtorEq, false_and, and_false, exists_false, List.mem_cons, List.not_mem_nil, or_false, false_or, true_and]
    constructor
    · rintro (⟨b, hbm, hh⟩ | hh)
      · have := congrArg String.toList hh
        simp only [String.toList_append, List.append_assoc, List.append_cancel_left_eq, List.append_cancel_right_eq] at this
        rwa [← String.ext this]
      · split at hh
        · simp only [List.mem_cons, List.not_mem_nil, or_false, Prod.mk.injEq, true_and] at hh
          have := congrArg (fun t : String => t.toList.take 3) hh
          simp only [String.toList_append, List.append_assoc] at this
          exact absurd this (by simp)
        · cases hh
    · exact fun hl => .inl ⟨l, hl, rfl⟩

/-- **C122 (total).**  The log warns of the total penalty exactly if what excess costs exceeds 10. -/
theorem C122_total (hv : sys.Valid) (hn : sys.n ≠ 0) (hf : s.Fits sys.n) (h : systemModel sys s = .ok o) {unit : String → String} {σ : Assignment} (hs : o.solver.Solves σ)
    {r : MainResults} (hr : mainResults sys unit σ s o = .ok r) (lower : String → String) (repr : ℚ → String) (thr : ℚ) :
    (∃ m, (MsgLevel.warning, "A total penalty of " ++ m ++ " occurred.This might distort the results") ∈ solveLog lower repr thr r) ↔
      10 < (s.buses.map fun b => b.penaltyCost sys σ).sum := by
  obtain ⟨r', e, hr', he, hpen, hobj, hb, hnd, hi, hni⟩ := C75 hv hn hf h unit hs
  rw [hr] at hr'
  cases hr'
  rw [← hpen]
  have hw : warnsPenalty r = true ↔ 10 < r.penalty := by simp [warnsPenalty]
  rw [← hw]
  unfold solveLog
  simp only [List.mem_append, List.mem_map, Prod.mk.injEq, reduceCtorEq, false_and, and_false, exists_false, List.mem_cons, List.not_mem_nil, or_false, false_or, true_and]
  constructor
  · rintro ⟨m, ⟨b, _, hh⟩ | hh⟩
    · have := congrArg (fun t : String => t.toList.take 3) hh
      simp only [String.toList_append, List.append_assoc] at this
      exact absurd this (by simp)
    · by_contra hc
      rw [if_neg hc] at hh
      cases hh
  · intro hc
    refine ⟨repr r.penalty, .inr ?_⟩
    rw [if_pos hc]
    exact List.mem_singleton.2 rfl

/-- The example: the log names the bus with excess, the total penalty and the size of the boiler. -/
example : ∃ o r, systemModel exSys exSystem = .ok o ∧ o.solver.Solves exSystemSol ∧ mainResults exSys (fun _ => "€") exSystemSol exSystem o = .ok r ∧
    (MsgLevel.warning, "A penalty occurred in Bus \"heat\"!") ∈ solveLog id (fun _ => "") 10 r ∧
    decisionMessage id r = "  Boiler__th                    :      10.00" := by
  obtain ⟨o, h, hs⟩ := exSystem_ok
  obtain ⟨r, e, hr, _, hpen, _, hb, _, hi, hni⟩ := C75 exSys_valid (by decide) exSystem_fits h (fun _ => "€") hs
  refine ⟨o, r, h, hs, hr, ?_, ?_⟩
  · refine ((C122 exSys_valid (by decide) exSystem_fits h hs hr id (fun _ => "") 10).2.2.2 "heat").2 ?_
    decide +kernel
  · have e1 : r.invested = [("Boiler__th", 10)] := by rw [hi]; decide +kernel
    have e2 : r.notInvested = [] := by rw [hni]; decide +kernel
    unfold decisionMessage
    rw [e1, e2]
    decide +kernel

/-- Equal values keep their order, larger ones come first. -/
example : sortEntries id .value [("a", 2), ("b", 5 / 3), ("c", 2)] = [("a", 2), ("c", 2), ("b", 5 / 3)] := by
  norm_num [sortEntries, List.mergeSort, List.MergeSort.Internal.splitInTwo, List.merge]

/-- Keys are compared in lower case. -/
example (lower : String → String) (h : lower "B" = "b") (h' : lower "a" = "a") : sortEntries lower .key [("B", 1), ("a", 2)] = [("a", 2), ("B", 1)] := by
  have : ¬ ("b" : String) ≤ "a" := by decide +kernel
  simp [sortEntries, List.mergeSort, List.MergeSort.Internal.splitInTwo, List.merge, h, h', this]

end Flix
