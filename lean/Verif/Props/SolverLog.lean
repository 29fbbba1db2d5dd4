import Verif.Lemmas.SolverLog

/-!
# C104: the sizes read from a solver log are those written in it
-/

namespace Flix

/-! ## What the solvers write -/

/-- Gurobi, after presolving. -/
def gurobiText (rows cols nonzeros continuous integer binary : Nat) : String :=
  "Presolved: " ++ toString rows ++ " rows, " ++ toString cols ++ " columns, " ++ toString nonzeros ++ " nonzeros\nVariable types: " ++ toString continuous ++ " continuous, " ++
    toString integer ++ " integer (" ++ toString binary ++ " binary)"

/-- CBC, sizes with their changes. -/
def cbcSizesText (rows cols nonzeros : Nat) (dRows dCols dNonzeros : Int) : String :=
  "Presolve " ++ toString rows ++ " (" ++ toString dRows ++ ") rows, " ++ toString cols ++ " (" ++ toString dCols ++ ") columns and " ++ toString nonzeros ++ " (" ++ toString dNonzeros ++ ") elements"

/-- CBC, kinds of variables. -/
def cbcKindsText (integer binary : Nat) : String := "Presolved problem has " ++ toString integer ++ " integers (" ++ toString binary ++ " of which binary)"

/-- The log contains the text, and the words it begins with do not stand before it. -/
def FirstIn (log : String) (words text : String) : Prop := ∃ pre rest : List Char, log.toList = pre ++ (text.toList ++ rest) ∧ NotBefore words pre (text.toList ++ rest)

/-- The log contains the text. -/
def Contains (log text : String) : Prop := ∃ pre rest : List Char, log.toList = pre ++ text.toList ++ rest

/-! ## Shapes of these texts -/

theorem gurobi_shaped (r c z k i b : Nat) : Shaped gurobiPattern [(toString r).toList, (toString c).toList, (toString z).toList, (toString k).toList, (toString i).toList, (toString b).toList]
    (gurobiText r c z k i b).toList := by
  have e : (gurobiText r c z k i b).toList = "Presolved: ".toList ++ ((toString r).toList ++ (" rows, ".toList ++ ((toString c).toList ++ (" columns, ".toList ++ ((toString z).toList ++
      (" nonzeros\nVariable types: ".toList ++ ((toString k).toList ++ (" continuous, ".toList ++ ((toString i).toList ++ (" integer (".toList ++ ((toString b).toList ++ (" binary)".toList ++ [])))))))))))) := by
    unfold gurobiText
    simp only [String.toList_append, List.append_assoc, List.append_nil]
  rw [e]
  exact .lit (.digits (digits_repr r).1 (.lit (.digits (digits_repr c).1 (.lit (.digits (digits_repr z).1 (.lit (.digits (digits_repr k).1 (.lit (.digits (digits_repr i).1 (.lit (.digits (digits_repr b).1
    (.lit .nil))))))))))))

theorem signed_repr (z : Int) : SignedDigits (toString z).toList := by
  cases z with
  | ofNat n => exact .inl (digits_repr n).1
  | negSucc n =>
    refine .inr ⟨(toString (n + 1)).toList, ?_, (digits_repr (n + 1)).1⟩
    show ("-" ++ toString (n + 1)).toList = _
    rw [String.toList_append]
    rfl

theorem cbcSizes_shaped (r c z : Nat) (a b : Int) : Shaped cbcSizes [(toString r).toList, (toString a).toList, (toString c).toList, (toString b).toList, (toString z).toList]
    ("Presolve " ++ toString r ++ " (" ++ toString a ++ ") rows, " ++ toString c ++ " (" ++ toString b ++ ") columns and " ++ toString z).toList := by
  have e : ("Presolve " ++ toString r ++ " (" ++ toString a ++ ") rows, " ++ toString c ++ " (" ++ toString b ++ ") columns and " ++ toString z).toList =
      "Presolve ".toList ++ ((toString r).toList ++ (" (".toList ++ ((toString a).toList ++ (") rows, ".toList ++ ((toString c).toList ++ (" (".toList ++ ((toString b).toList ++ (") columns and ".toList ++
        ((toString z).toList ++ []))))))))) := by
    simp only [String.toList_append, List.append_assoc, List.append_nil]
  rw [e]
  exact .lit (.digits (digits_repr r).1 (.lit (.signed (signed_repr a) (.lit (.digits (digits_repr c).1 (.lit (.signed (signed_repr b) (.lit (.digits (digits_repr z).1 .nil)))))))))

theorem cbcKinds_shaped (i b : Nat) : Shaped cbcKinds [(toString i).toList, (toString b).toList] (cbcKindsText i b).toList := by
  have e : (cbcKindsText i b).toList = "Presolved problem has ".toList ++ ((toString i).toList ++ (" integers (".toList ++ ((toString b).toList ++ (" of which binary)".toList ++ [])))) := by
    unfold cbcKindsText
    simp only [String.toList_append, List.append_assoc, List.append_nil]
  rw [e]
  exact .lit (.digits (digits_repr i).1 (.lit (.digits (digits_repr b).1 (.lit .nil))))

theorem gurobi_separated : Separated gurobiPattern ∧ Separated cbcSizes ∧ Separated cbcKinds := by
  refine ⟨?_, ?_, ?_⟩
  · exact (sep_follow (by decide +kernel) (sep_follow (by decide +kernel) (sep_follow (by decide +kernel) (sep_follow (by decide +kernel) (sep_follow (by decide +kernel)
      (sep_follow (ps := []) (by decide +kernel) trivial).1).1).1).1).1).1
  · exact (sep_follow (by decide +kernel) (sep_follow (by decide +kernel) (sep_follow (by decide +kernel) (sep_follow (by decide +kernel) (show Separated [.digits] from ⟨trivial, .inl rfl⟩)).2).1).2).1
  · exact (sep_follow (by decide +kernel) (sep_follow (ps := []) (by decide +kernel) trivial).1).1

/-! ## The property -/

/-- **C104 (Gurobi).**  The six numbers of the first line on presolving are read, whatever stands before and after it. -/
theorem C104_gurobi {log : String} {r c z k i b : Nat} (h : FirstIn log "Presolved: " (gurobiText r c z k i b)) :
    parseInfos "gurobi" log.toList = .ok { rows := some r, cols := some c, nonzeros := some z, continuous := some k, integer := some i, binary := some b } := by
  obtain ⟨pre, rest, e, hb⟩ := h
  have := searchLog_found (gurobi_shaped r c z k i b) gurobi_separated.1 (.inr ⟨_, rfl⟩) hb
  unfold parseInfos gurobiInfos
  rw [if_pos rfl, e]
  change searchLog gurobiPattern _ = _ at this
  rw [this]
  simp only [groupInt, List.getD_cons_zero, List.getD_cons_succ, Nat.reduceSub, (digits_repr _).2]

/-- **C104 (Gurobi, nothing else).**  Values are read from a text of this form in the log, all six from the same one; without such a text they stay `None`. -/
theorem C104_gurobi_sound {log : String} {i : LogInfos} (h : parseInfos "gurobi" log.toList = .ok i) :
    (i = {} ∧ ∀ r c z k j b, ¬ Contains log (gurobiText r c z k j b)) ∨
    ∃ pre rest r c z k j b, (∀ d ∈ [r, c, z, k, j, b], Digits d) ∧
      log.toList = pre ++ ("Presolved: ".toList ++ r ++ " rows, ".toList ++ c ++ " columns, ".toList ++ z ++ " nonzeros\nVariable types: ".toList ++ k ++ " continuous, ".toList ++ j ++ " integer (".toList ++
        b ++ " binary)".toList) ++ rest ∧
      i = { rows := some (Nat.ofDigitChars 10 r 0), cols := some (Nat.ofDigitChars 10 c 0), nonzeros := some (Nat.ofDigitChars 10 z 0), continuous := some (Nat.ofDigitChars 10 k 0),
            integer := some (Nat.ofDigitChars 10 j 0), binary := some (Nat.ofDigitChars 10 b 0) } := by
  unfold parseInfos gurobiInfos at h
  rw [if_pos rfl] at h
  cases hs : searchLog gurobiPattern log.toList with
  | none =>
    rw [hs] at h
    cases h
    refine .inl ⟨rfl, fun r c z k j b hc => ?_⟩
    obtain ⟨pre, rest, e⟩ := hc
    obtain ⟨g, hg⟩ := searchLog_some (gurobi_shaped r c z k j b) pre rest
    rw [← e, hs] at hg
    cases hg
  | some g =>
    rw [hs] at h
    cases h
    obtain ⟨pre, text, rest, e, k0⟩ := searchLog_sound hs
    obtain ⟨t1, rfl, k1⟩ := shaped_lit k0
    obtain ⟨r, g1, t2, rfl, rfl, dr, k2⟩ := shaped_digits k1
    obtain ⟨t3, rfl, k3⟩ := shaped_lit k2
    obtain ⟨c, g2, t4, rfl, rfl, dc, k4⟩ := shaped_digits k3
    obtain ⟨t5, rfl, k5⟩ := shaped_lit k4
    obtain ⟨z, g3, t6, rfl, rfl, dz, k6⟩ := shaped_digits k5
    obtain ⟨t7, rfl, k7⟩ := shaped_lit k6
    obtain ⟨k, g4, t8, rfl, rfl, dk, k8⟩ := shaped_digits k7
    obtain ⟨t9, rfl, k9⟩ := shaped_lit k8
    obtain ⟨j, g5, t10, rfl, rfl, dj, k10⟩ := shaped_digits k9
    obtain ⟨t11, rfl, k11⟩ := shaped_lit k10
    obtain ⟨b, g6, t12, rfl, rfl, db, k12⟩ := shaped_digits k11
    obtain ⟨t13, rfl, k13⟩ := shaped_lit k12
    cases k13
    refine .inr ⟨pre, rest, r, c, z, k, j, b, ?_, ?_, rfl⟩
    · simp only [List.forall_mem_cons, List.not_mem_nil, false_imp_iff, implies_true, and_true]
      exact ⟨dr, dc, dz, dk, dj, db⟩
    · rw [e]
      simp only [List.append_assoc, List.append_nil]

/-- **C104 (CBC).**  The sizes and the kinds of variables are read; the continuous variables are the remaining ones.
Missing: logs without sizes (`C104_cbc_wrong`). -/
theorem C104_cbc_partial {log : String} {r c z i b : Nat} {dr dc dz : Int} (h : FirstIn log "Presolve " (cbcSizesText r c z dr dc dz)) (h' : FirstIn log "Presolved problem has " (cbcKindsText i b)) :
    parseInfos "cbc" log.toList = .ok { rows := some r, cols := some c, nonzeros := some z, continuous := some (c - i), integer := some i, binary := some b } := by
  have s1 : cbcFirst log.toList = { rows := some r, cols := some c, nonzeros := some z } := by
    obtain ⟨pre, rest, e, hb⟩ := h
    have split : (cbcSizesText r c z dr dc dz).toList ++ rest = ("Presolve " ++ toString r ++ " (" ++ toString dr ++ ") rows, " ++ toString c ++ " (" ++ toString dc ++ ") columns and " ++ toString z).toList ++
        (" (".toList ++ ((toString dz).toList ++ (") elements".toList ++ rest))) := by
      unfold cbcSizesText
      simp only [String.toList_append, List.append_assoc]
    rw [split] at e hb
    have := searchLog_found (cbcSizes_shaped r c z dr dc) gurobi_separated.2.1 (.inl (fun x hx => by cases hx; rfl)) hb
    unfold cbcFirst
    rw [e]
    change searchLog cbcSizes _ = _ at this
    rw [this]
    simp only [groupInt, List.getD_cons_zero, List.getD_cons_succ, Nat.reduceSub, (digits_repr _).2]
  obtain ⟨pre, rest, e, hb⟩ := h'
  have := searchLog_found (cbcKinds_shaped i b) gurobi_separated.2.2 (.inr ⟨_, rfl⟩) hb
  unfold parseInfos
  rw [if_neg (by decide), if_pos rfl, s1]
  unfold cbcSecond
  rw [e]
  change searchLog cbcKinds _ = _ at this
  rw [this]
  simp only [groupInt, List.getD_cons_zero, List.getD_cons_succ, Nat.reduceSub, (digits_repr _).2]

/-- **C104 (CBC, refused).**  A log is refused with a `TypeError` exactly if it names kinds of variables but no sizes in the form of the pattern. -/
theorem C104_cbc_iff (log : String) : (parseInfos "cbc" log.toList = .error .type ↔
      (∃ pre rest i b, Digits i ∧ Digits b ∧ log.toList = pre ++ ("Presolved problem has ".toList ++ i ++ " integers (".toList ++ b ++ " of which binary)".toList) ++ rest) ∧
      ¬ ∃ pre rest r x c y z, Digits r ∧ SignedDigits x ∧ Digits c ∧ SignedDigits y ∧ Digits z ∧
        log.toList = pre ++ ("Presolve ".toList ++ r ++ " (".toList ++ x ++ ") rows, ".toList ++ c ++ " (".toList ++ y ++ ") columns and ".toList ++ z) ++ rest) ∧
    ∀ e, parseInfos "cbc" log.toList = .error e → e = .type := by
  have kinds : (∃ g, searchLog cbcKinds log.toList = some g) ↔
      ∃ pre rest i b, Digits i ∧ Digits b ∧ log.toList = pre ++ ("Presolved problem has ".toList ++ i ++ " integers (".toList ++ b ++ " of which binary)".toList) ++ rest := by
    constructor
    · rintro ⟨g, hg⟩
      obtain ⟨pre, text, rest, e, k0⟩ := searchLog_sound hg
      obtain ⟨t1, rfl, k1⟩ := shaped_lit k0
      obtain ⟨i, g1, t2, rfl, rfl, di, k2⟩ := shaped_digits k1
      obtain ⟨t3, rfl, k3⟩ := shaped_lit k2
      obtain ⟨b, g2, t4, rfl, rfl, db, k4⟩ := shaped_digits k3
      obtain ⟨t5, rfl, k5⟩ := shaped_lit k4
      cases k5
      exact ⟨pre, rest, i, b, di, db, by rw [e]; simp only [List.append_assoc, List.append_nil]⟩
    · rintro ⟨pre, rest, i, b, di, db, e⟩
      have sh : Shaped cbcKinds [i, b] ("Presolved problem has ".toList ++ (i ++ (" integers (".toList ++ (b ++ (" of which binary)".toList ++ []))))) := .lit (.digits di (.lit (.digits db (.lit .nil))))
      obtain ⟨g, hg⟩ := searchLog_some sh pre rest
      refine ⟨g, ?_⟩
      rw [← hg, e]
      simp only [List.append_assoc, List.append_nil]
  have sizes : (∃ g, searchLog cbcSizes log.toList = some g) ↔ ∃ pre rest r x c y z, Digits r ∧ SignedDigits x ∧ Digits c ∧ SignedDigits y ∧ Digits z ∧
        log.toList = pre ++ ("Presolve ".toList ++ r ++ " (".toList ++ x ++ ") rows, ".toList ++ c ++ " (".toList ++ y ++ ") columns and ".toList ++ z) ++ rest := by
    constructor
    · rintro ⟨g, hg⟩
      obtain ⟨pre, text, rest, e, k0⟩ := searchLog_sound hg
      obtain ⟨t1, rfl, k1⟩ := shaped_lit k0
      obtain ⟨r, g1, t2, rfl, rfl, dr, k2⟩ := shaped_digits k1
      obtain ⟨t3, rfl, k3⟩ := shaped_lit k2
      obtain ⟨x, g2, t4, rfl, rfl, dx, k4⟩ := shaped_signed k3
      obtain ⟨t5, rfl, k5⟩ := shaped_lit k4
      obtain ⟨c, g3, t6, rfl, rfl, dc, k6⟩ := shaped_digits k5
      obtain ⟨t7, rfl, k7⟩ := shaped_lit k6
      obtain ⟨y, g4, t8, rfl, rfl, dy, k8⟩ := shaped_signed k7
      obtain ⟨t9, rfl, k9⟩ := shaped_lit k8
      obtain ⟨z, g5, t10, rfl, rfl, dz, k10⟩ := shaped_digits k9
      cases k10
      exact ⟨pre, rest, r, x, c, y, z, dr, dx, dc, dy, dz, by rw [e]; simp only [List.append_assoc, List.append_nil]⟩
    · rintro ⟨pre, rest, r, x, c, y, z, dr, dx, dc, dy, dz, e⟩
      have sh : Shaped cbcSizes [r, x, c, y, z] ("Presolve ".toList ++ (r ++ (" (".toList ++ (x ++ (") rows, ".toList ++ (c ++ (" (".toList ++ (y ++ (") columns and ".toList ++ (z ++ [])))))))))) :=
        .lit (.digits dr (.lit (.signed dx (.lit (.digits dc (.lit (.signed dy (.lit (.digits dz .nil)))))))))
      obtain ⟨g, hg⟩ := searchLog_some sh pre rest
      refine ⟨g, ?_⟩
      rw [← hg, e]
      simp only [List.append_assoc, List.append_nil]
  rw [← kinds, ← sizes]
  unfold parseInfos
  rw [if_neg (by decide), if_pos rfl]
  unfold cbcSecond cbcFirst
  cases searchLog cbcKinds log.toList with
  | none => simp
  | some g =>
    cases searchLog cbcSizes log.toList with
    | none => simp
    | some g' => simp

/-- **C104 (CBC, wrong).**  A log that names the kinds of variables without sizes is refused instead of giving what it says. -/
theorem C104_cbc_wrong : parseInfos "cbc" "Presolved problem has 862 integers (862 of which binary)\n".toList = .error .type := by decide +kernel

/-- **C104 (what is shown).**  `infos` shows each number of the line of Gurobi under its own name. -/
theorem C104_shown {log : String} {r c z k i b : Nat} (h : FirstIn log "Presolved: " (gurobiText r c z k i b)) :
    ∃ q, parseInfos "gurobi" log.toList = .ok q ∧ (q.dict.map (·.1)).Nodup ∧
      ∀ p ∈ [("rows", r), ("cols", c), ("nonzeros", z), ("continuous", k), ("integer", i), ("binary", b)], (p.1, some (p.2 : Int)) ∈ q.dict := by
  refine ⟨_, C104_gurobi h, by simp [LogInfos.dict], ?_⟩
  simp [LogInfos.dict]

/-- **C104 (other solvers).**  The log of GLPK is read without an exception and nothing is shown of it; a log of a solver without a parser raises. -/
theorem C104_others (log : String) : (∃ q, parseInfos "glpk" log.toList = .ok q ∧ ∀ p ∈ q.dict, p.2 = none) ∧
    ∀ solver, solver ∉ ["gurobi", "cbc", "glpk"] → parseInfos solver log.toList = .error .exception := by
  refine ⟨⟨_, rfl, by simp [LogInfos.dict]⟩, fun solver hs => ?_⟩
  simp only [List.mem_cons, List.not_mem_nil, or_false, not_or] at hs
  simp [parseInfos, hs]

/-- The hypotheses of `C104_gurobi` are met by a log with text around the line. -/
example : parseInfos "gurobi" ("Presolve removed 154 rows and 172 columns\nPresolve time: 0.00s\n" ++ gurobiText 131 120 339 53 67 67 ++ "\nRoot relaxation").toList =
    .ok { rows := some 131, cols := some 120, nonzeros := some 339, continuous := some 53, integer := some 67, binary := some 67 } := by
  refine C104_gurobi ⟨"Presolve removed 154 rows and 172 columns\nPresolve time: 0.00s\n".toList, "\nRoot relaxation".toList, ?_, notBefore_of (by decide +kernel)⟩
  simp only [String.toList_append, List.append_assoc]

/-- The hypotheses of `C104_cbc_partial` are met: sizes first, kinds of variables below. -/
example : parseInfos "cbc" ("Coin0506I " ++ cbcSizesText 1623 1430 4296 (-1079) (-1078) (-3306) ++ "\n" ++ cbcKindsText 862 860 ++ "\n").toList =
    .ok { rows := some 1623, cols := some 1430, nonzeros := some 4296, continuous := some 568, integer := some 862, binary := some 860 } := by
  refine C104_cbc_partial (r := 1623) (c := 1430) (z := 4296) (i := 862) (b := 860) (dr := -1079) (dc := -1078) (dz := -3306)
    ⟨"Coin0506I ".toList, ("\n" ++ cbcKindsText 862 860 ++ "\n").toList, ?_, notBefore_of (by decide +kernel)⟩
    ⟨("Coin0506I " ++ cbcSizesText 1623 1430 4296 (-1079) (-1078) (-3306) ++ "\n").toList, "\n".toList, ?_, notBefore_of (by decide +kernel)⟩ <;>
  simp only [String.toList_append, List.append_assoc]

/-- Sizes that are not followed by the kinds of variables in the next line are not read. -/
theorem C104_gurobi_linear : parseInfos "gurobi" "Presolved: 131 rows, 120 columns, 339 nonzeros\n\nIteration    Objective".toList = .ok {} := by decide +kernel

end Flix
