import Verif.Lemmas.Infos
import Mathlib.Tactic.Ring
import Mathlib.Tactic.NormNum

/-!
# The files with descriptions
-/

namespace Flix

theorem listsIn_bools (ex : List (String × Bool)) : listsIn (ex.map fun q => (some q.1, Doc.bool q.2)) = ex.map fun q => (some q.1, Doc.bool q.2) := by
  induction ex with
  | nil => rfl
  | cons q ex ih => simp [listsIn, Doc.lists, ih]

theorem convList_numbers (lab : Bool) (vs : List Val) (h : (vs.all fun v => v.number?.isSome) = true) : convList false lab vs = (vs.filterMap Val.number?).map .num := by
  induction vs with
  | nil => rfl
  | cons v vs ih =>
    simp only [List.all_cons, Bool.and_eq_true] at h
    cases v <;> simp_all [Val.number?, convList, Val.conv]

mutual
  theorem conv_lists (lab : Bool) : ∀ v : Val, (v.conv true lab).lists = v.conv false lab
    | .none | .bool _ | .num _ | .str _ => by simp [Val.conv, Doc.lists]
    | .arr xs => by simp [Val.conv, arrDoc, Doc.lists]
    | .series (.s x) => by simp [Val.conv, Num.doc, Doc.lists]
    | .series (.v xs) => by simp [Val.conv, Num.doc, arrDoc, Doc.lists]
    | .list vs => by
      rw [Val.conv, Val.conv]
      by_cases h : (vs.all fun v => v.number?.isSome) = true
      · simp only [h, Bool.and_self, Bool.and_true, if_true, Bool.false_eq_true, if_false, Doc.lists, Doc.list.injEq]
        exact (convList_numbers lab vs h).symm
      · simp only [h, Bool.and_false, Bool.false_eq_true, if_false, Doc.lists, convList_lists lab vs]
    | .dict es => by rw [Val.conv, Val.conv, Doc.lists, convEntries_lists lab es]
    | .obj cls label as ex => by
      rw [Val.conv, Val.conv]
      split
      · rfl
      · rw [Doc.lists, listsIn, Doc.lists, entries_lists lab as ex] <;> simp
  theorem convList_lists (lab : Bool) : ∀ vs : List Val, listsOf (convList true lab vs) = convList false lab vs
    | [] => rfl
    | v :: vs => by rw [convList, convList, listsOf, conv_lists lab v, convList_lists lab vs]
  theorem convEntries_lists (lab : Bool) : ∀ es : List (Option String × Val), listsIn (convEntries true lab es) = convEntries false lab es
    | [] => rfl
    | (k, v) :: es => by rw [convEntries, convEntries, listsIn, conv_lists lab v, convEntries_lists lab es]
  theorem entries_lists (lab : Bool) : ∀ (as : List (String × Default × Val)) (ex : List (String × Bool)),
      listsIn (convArgs true lab as ++ ex.map fun q => (some q.1, Doc.bool q.2)) = convArgs false lab as ++ ex.map fun q => (some q.1, Doc.bool q.2)
    | [], ex => by
      simp only [convArgs, List.nil_append]
      exact listsIn_bools ex
    | (n, d, v) :: as, ex => by
      rw [convArgs, convArgs]
      split
      · exact entries_lists lab as ex
      · rw [List.cons_append, List.cons_append, listsIn, conv_lists lab v, entries_lists lab as ex]
end
theorem infos_lists (lab : Bool) (v : Val) : (v.infos true lab).lists = v.infos false lab := by
  cases v with
  | obj cls l as ex => rw [Val.infos, Val.infos, Doc.lists, listsIn, Doc.lists, entries_lists lab as ex] <;> simp
  | none | bool | num | str | arr | series | list | dict => exact conv_lists lab _

theorem setDoc_lists (k : String) (x : Doc) (es : List (Option String × Doc)) : listsIn (setDoc k x es) = setDoc k x.lists (listsIn es) := by
  induction es with
  | nil => rfl
  | cons e es ih =>
    obtain ⟨m, y⟩ := e
    unfold setDoc
    by_cases h : m = some k <;> simp [listsIn, h, ih]

theorem listsOf_map {α : Type} (g : α → Doc) (xs : List α) : listsOf (xs.map g) = xs.map fun a => (g a).lists := by
  induction xs with
  | nil => rfl
  | cons a xs ih => simp [listsOf, ih]

theorem listsIn_map {α : Type} (k : α → Option String) (g : α → Doc) (xs : List α) : listsIn (xs.map fun a => (k a, g a)) = xs.map fun a => (k a, (g a).lists) := by
  induction xs with
  | nil => rfl
  | cons a xs ih => simp [listsIn, ih]

theorem flowDocs_lists (cfg : Cfg) (lab : Bool) (bus : String → BusData) (i : Bool) (fs : List FlowData) :
    (flowDocs cfg true lab bus i fs).lists = flowDocs cfg false lab bus i fs := by
  simp only [flowDocs, Doc.lists, listsOf_map, infos_lists]

theorem comp_lists (cfg : Cfg) (lab : Bool) (bus : String → BusData) (c : Comp) : (c.infos cfg true lab bus).lists = c.infos cfg false lab bus := by
  have key : ∃ cls l as, c.val cfg bus = .obj cls l as [] := by cases c <;> exact ⟨_, _, _, rfl⟩
  obtain ⟨cls, l, as, e⟩ := key
  rw [comp_doc e, comp_doc e]
  have k := entries_lists lab as []
  simp only [List.map_nil, List.append_nil] at k
  simp only [Doc.lists, setDoc_lists, flowDocs_lists, listsIn, k]

/-- Converting the arrays of a description to lists gives the description without arrays. -/
theorem system_lists (cfg : Cfg) (lab : Bool) (text : String → String × String) (s : System) : (s.infos cfg true lab text).lists = s.infos cfg false lab text := by
  simp only [System.infos, Doc.lists, listsIn, listsIn_map, comp_lists, infos_lists]

/-- At most 50 numbers with at most two decimals. -/
def ShortNums (xs : List ℚ) : Prop := xs.length ≤ 50 ∧ ∀ x ∈ xs, ∃ k : ℤ, x = k / 100

mutual
  /-- All arrays in a description are short. -/
  def Doc.Short : Doc → Prop
    | .arr xs => ShortNums xs
    | .list ds => ShortNums (ds.filterMap Doc.number?) ∧ allShort ds
    | .dict es => entriesShort es
    | _ => True
  def allShort : List Doc → Prop
    | [] => True
    | d :: ds => d.Short ∧ allShort ds
  def entriesShort : List (Option String × Doc) → Prop
    | [] => True
    | (_, d) :: es => d.Short ∧ entriesShort es
end

theorem around_two (k : ℤ) : around (k / 100) = k / 100 := by
  have e : ((k : ℚ) / 100 * 100) = k := by ring
  unfold around
  rw [e]
  have : pyRound (k : ℚ) = k := by
    unfold pyRound
    have f : (k : ℚ).floor = k := Rat.floor_intCast k
    rw [if_pos (by rw [f]; norm_num), f]
  rw [this]

theorem shortArr_lists (stats : List ℚ → String) {xs : List ℚ} (h : ShortNums xs) : shortArr stats xs = .list (xs.map .num) := by
  unfold shortArr
  rw [if_neg (by have := h.1; omega), Doc.list.injEq]
  refine List.map_congr_left fun x hx => ?_
  obtain ⟨k, rfl⟩ := h.2 x hx
  rw [around_two]

theorem listsOf_numbers (ds : List Doc) (h : (ds.all fun d => d.number?.isSome) = true) : listsOf ds = (ds.filterMap Doc.number?).map .num := by
  induction ds with
  | nil => rfl
  | cons d ds ih =>
    simp only [List.all_cons, Bool.and_eq_true] at h
    cases d <;> simp_all [Doc.number?, listsOf, Doc.lists]

mutual
  theorem compact_lists (stats : List ℚ → String) : ∀ d : Doc, d.Short → d.compact stats = d.lists
    | .null, _ | .bool _, _ | .num _, _ | .str _, _ => by simp [Doc.compact, Doc.lists]
    | .arr xs, h => by
      rw [Doc.Short] at h
      rw [Doc.compact, Doc.lists, shortArr_lists stats h]
    | .list ds, h => by
      rw [Doc.Short] at h
      rw [Doc.compact, Doc.lists]
      split
      · rename_i hd
        rw [shortArr_lists stats h.1, listsOf_numbers ds hd]
      · rw [compactOf_lists stats ds h.2]
    | .dict es, h => by
      rw [Doc.Short] at h
      rw [Doc.compact, Doc.lists, compactIn_lists stats es h]
  theorem compactOf_lists (stats : List ℚ → String) : ∀ ds : List Doc, allShort ds → compactOf stats ds = listsOf ds
    | [], _ => rfl
    | d :: ds, h => by
      rw [allShort] at h
      rw [compactOf, listsOf, compact_lists stats d h.1, compactOf_lists stats ds h.2]
  theorem compactIn_lists (stats : List ℚ → String) : ∀ es : List (Option String × Doc), entriesShort es → compactIn stats es = listsIn es
    | [], _ => rfl
    | (k, d) :: es, h => by
      rw [entriesShort] at h
      rw [compactIn, listsIn, compact_lists stats d h.1, compactIn_lists stats es h.2]
end

end Flix
