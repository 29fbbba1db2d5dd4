import Verif.Model.Infos
import Mathlib.Data.List.Forall2

/-!
# Reading a description back
-/

namespace Flix

/-- One argument as shown in a description, if it is shown. -/
def shown (np lab : Bool) (d : Default) (v : Val) : Option Doc := if v.omitted d then none else some (v.conv np lab)

theorem convArgs_cons (np lab : Bool) (n : String) (d : Default) (v : Val) (as : List (String × Default × Val)) :
    convArgs np lab ((n, d, v) :: as) = ((shown np lab d v).map fun x => (some n, x)).toList ++ convArgs np lab as := by
  rw [convArgs]
  unfold shown
  by_cases h : v.omitted d = true <;> simp [h]

theorem convArgs_names (np lab : Bool) (as : List (String × Default × Val)) : ∀ q ∈ convArgs np lab as, ∃ n, q.1 = some n ∧ n ∈ as.map (·.1) := by
  induction as with
  | nil => simp [convArgs]
  | cons a as ih =>
    obtain ⟨n, d, v⟩ := a
    intro q hq
    rw [convArgs_cons, List.mem_append] at hq
    rcases hq with hq | hq
    · cases hs : shown np lab d v with
      | none => simp [hs] at hq
      | some x => simp only [hs, Option.map_some, Option.toList_some, List.mem_singleton] at hq; subst hq; exact ⟨n, rfl, by simp⟩
    · obtain ⟨m, e, hm⟩ := ih q hq
      exact ⟨m, e, List.mem_cons_of_mem _ hm⟩

theorem convArgs_inj (np lab : Bool) : ∀ {as bs : List (String × Default × Val)}, as.map (·.1) = bs.map (·.1) → (as.map (·.1)).Nodup → convArgs np lab as = convArgs np lab bs →
    List.Forall₂ (fun a b => shown np lab a.2.1 a.2.2 = shown np lab b.2.1 b.2.2) as bs
  | [], [], _, _, _ => .nil
  | [], _ :: _, h, _, _ => by simp at h
  | _ :: _, [], h, _, _ => by simp at h
  | (n, d, v) :: as, (m, d', w) :: bs, h, hn, e => by
    simp only [List.map_cons, List.cons.injEq] at h
    obtain ⟨rfl, h⟩ := h
    simp only [List.map_cons, List.nodup_cons] at hn
    rw [convArgs_cons, convArgs_cons] at e
    have no : ∀ (cs : List (String × Default × Val)) (x : Doc) (r : List (Option String × Doc)), cs.map (·.1) = as.map (·.1) → convArgs np lab cs = (some n, x) :: r → False := by
      intro cs x r hc h2
      obtain ⟨k, e1, e2⟩ := convArgs_names np lab cs (some n, x) (by rw [h2]; exact List.mem_cons_self)
      cases e1
      exact hn.1 (hc ▸ e2)
    cases h1 : shown np lab d v with
    | none =>
      cases h2 : shown np lab d' w with
      | none =>
        simp only [h1, h2, Option.map_none, Option.toList_none, List.nil_append] at e
        exact .cons (h1.trans h2.symm) (convArgs_inj np lab h hn.2 e)
      | some y =>
        simp only [h1, h2, Option.map_none, Option.toList_none, List.nil_append, Option.map_some, Option.toList_some, List.singleton_append] at e
        exact (no _ _ _ rfl e).elim
    | some x =>
      cases h2 : shown np lab d' w with
      | none =>
        simp only [h1, h2, Option.map_none, Option.toList_none, List.nil_append, Option.map_some, Option.toList_some, List.singleton_append] at e
        exact (no _ _ _ h.symm e.symm).elim
      | some y =>
        simp only [h1, h2, Option.map_some, Option.toList_some, List.singleton_append, List.cons.injEq, Prod.mk.injEq, true_and] at e
        exact .cons (by rw [h1, h2, e.1]) (convArgs_inj np lab h hn.2 e.2)

theorem obj_inj {np lab : Bool} {cls cls' : String} {l l' : Option String} {as bs : List (String × Default × Val)} {ex ex' : List (String × Bool)}
    (hn : as.map (·.1) = bs.map (·.1)) (hd : (as.map (·.1)).Nodup) (hx : ex.length = ex'.length)
    (h : (Val.obj cls l as ex).infos np lab = (Val.obj cls' l' bs ex').infos np lab) :
    List.Forall₂ (fun a b => shown np lab a.2.1 a.2.2 = shown np lab b.2.1 b.2.2) as bs := by
  simp only [Val.infos, Doc.dict.injEq, List.cons.injEq] at h
  exact convArgs_inj np lab hn hd (List.append_inj_left' h.2 (by simp [hx]))

/-- Objects that are no elements are always described in full. -/
theorem obj_conv {np lab : Bool} {cls : String} {as : List (String × Default × Val)} {ex : List (String × Bool)} :
    (Val.obj cls none as ex).conv np lab = (Val.obj cls none as ex).infos np lab := by
  simp [Val.infos, Val.conv]

theorem doc_inj {np : Bool} : ∀ {a b : Num}, a.doc np = b.doc np → a = b
  | .s x, .s y, h => by simpa [Num.doc] using h
  | .s x, .v ys, h => by cases np <;> simp [Num.doc, arrDoc] at h
  | .v xs, .s y, h => by cases np <;> simp [Num.doc, arrDoc] at h
  | .v xs, .v ys, h => by
    cases np
    · simp only [Num.doc, arrDoc, Bool.false_eq_true, if_false, Doc.list.injEq] at h
      rw [(List.map_inj_right fun x y h => by simpa using h).1 h]
    · simpa [Num.doc, arrDoc] using h

theorem val_conv (np lab : Bool) (a : Num) : a.val.conv np lab = a.doc np := by
  cases a <;> simp [Num.val, Val.conv, Num.doc]

theorem doc_not_null (np : Bool) (a : Num) : a.doc np ≠ .null := by
  cases a <;> cases np <;> simp [Num.doc, arrDoc]

section Fields
variable {np lab : Bool}

theorem shown_series {d : Default} {a b : Num} (h : shown np lab d (.series a) = shown np lab d (.series b)) : a = b := by
  have o : ∀ x : Num, (Val.series x).omitted d = false := fun x => by cases d <;> simp [Val.omitted, Val.equalsDefault, Val.isEmpty]
  simp only [shown, o, Bool.false_eq_true, if_false, Option.some.injEq, Val.conv] at h
  exact doc_inj h

theorem shown_optSeries {d : Default} {a b : Option Num} (h : shown np lab d (optSeries a) = shown np lab d (optSeries b)) : a = b := by
  have o : ∀ x : Num, (Val.series x).omitted d = false := fun x => by cases d <;> simp [Val.omitted, Val.equalsDefault, Val.isEmpty]
  have z : ∀ x : Num, shown np lab d (.series x) ≠ shown np lab d .none := by
    intro x
    simp only [shown, o, Bool.false_eq_true, if_false, Val.conv]
    split
    · simp
    · simpa using doc_not_null np x
  match a, b, h with
  | none, none, _ => rfl
  | none, some y, h => exact (z y h.symm).elim
  | some x, none, h => exact (z x h).elim
  | some x, some y, h => rw [shown_series h]

theorem shown_optNum {a b : Option ℚ} (h : shown np lab .none (optNum a) = shown np lab .none (optNum b)) : a = b := by
  cases a <;> cases b <;> simp_all [shown, optNum, Val.omitted, Val.equalsDefault, Val.isEmpty, Val.conv]

theorem shown_num {d : Default} {a b : ℚ} (h : shown np lab d (.num a) = shown np lab d (.num b)) : a = b := by
  cases d <;> simp only [shown, Val.omitted, Val.equalsDefault, Val.isEmpty, Val.conv, Bool.or_false, decide_eq_true_eq, Bool.false_eq_true, if_false, Option.some.injEq, Doc.num.injEq] at h
  · exact h
  · exact h
  · split at h <;> split at h <;> simp_all
  · split at h <;> split at h <;> simp_all

theorem shown_str {d : Default} {a b : String} (h : shown np lab d (.str a) = shown np lab d (.str b)) : a = b := by
  cases d <;> simpa [shown, Val.omitted, Val.equalsDefault, Val.isEmpty, Val.conv] using h

theorem shown_bool {c a b : Bool} (h : shown np lab (.bool c) (.bool a) = shown np lab (.bool c) (.bool b)) : a = b := by
  cases a <;> cases b <;> cases c <;> simp_all [shown, Val.omitted, Val.equalsDefault, Val.isEmpty, Val.conv]

theorem convEntries_map {α : Type} (g : α → Option String) (v : α → Val) (xs : List α) : convEntries np lab (xs.map fun a => (g a, v a)) = xs.map fun a => (g a, (v a).conv np lab) := by
  induction xs with
  | nil => rfl
  | cons a xs ih => simp [convEntries, ih]

theorem convList_map {α : Type} (v : α → Val) (xs : List α) : convList np lab (xs.map v) = xs.map fun a => (v a).conv np lab := by
  induction xs with
  | nil => rfl
  | cons a xs ih => simp [convList, ih]

/-- A dictionary as an argument can be read back. -/
theorem shown_dict {α : Type} {d : Default} {g : α → Option String} {v : α → Val} {xs ys : List α} (hi : ∀ a ∈ xs, ∀ b ∈ ys, g a = g b → (v a).conv np lab = (v b).conv np lab → a = b)
    (h : shown np lab d (.dict (xs.map fun a => (g a, v a))) = shown np lab d (.dict (ys.map fun a => (g a, v a)))) : xs = ys := by
  have e : ∀ l : List (Option String × Val), (Val.dict l).omitted d = l.isEmpty := by intro l; cases l <;> cases d <;> rfl
  have key : xs.map (fun a => (g a, (v a).conv np lab)) = ys.map (fun a => (g a, (v a).conv np lab)) → xs = ys := by
    intro k
    clear h e
    induction xs generalizing ys with
    | nil => cases ys with
      | nil => rfl
      | cons => simp at k
    | cons a xs ih => cases ys with
      | nil => simp at k
      | cons b ys =>
        simp only [List.map_cons, List.cons.injEq, Prod.mk.injEq] at k
        rw [hi a List.mem_cons_self b List.mem_cons_self k.1.1 k.1.2, ih (fun a ha b hb => hi a (List.mem_cons_of_mem _ ha) b (List.mem_cons_of_mem _ hb)) k.2]
  cases xs with
  | nil => cases ys with
    | nil => rfl
    | cons b ys => simp [shown, e] at h
  | cons a xs => cases ys with
    | nil => simp [shown, e] at h
    | cons b ys =>
      refine key ?_
      simp only [shown, e, List.map_cons, List.isEmpty_cons, Bool.false_eq_true, if_false, Option.some.injEq, Val.conv, Doc.dict.injEq] at h
      simpa [convEntries, convEntries_map] using h

/-- A converted list of things that are no numbers. -/
theorem conv_list {α : Type} {v : α → Val} (hv : ∀ a, (v a).number? = none) (xs : List α) :
    (Val.list (xs.map v)).conv np lab = if np && xs.isEmpty then .arr [] else .list (xs.map fun a => (v a).conv np lab) := by
  cases xs with
  | nil => cases np <;> simp [Val.conv, convList]
  | cons a xs => cases np <;> simp [Val.conv, convList, convList_map, hv]

theorem conv_list_inj {α : Type} {v : α → Val} (hv : ∀ a, (v a).number? = none) {xs ys : List α}
    (h : (Val.list (xs.map v)).conv np lab = (Val.list (ys.map v)).conv np lab) : List.Forall₂ (fun a b => (v a).conv np lab = (v b).conv np lab) xs ys := by
  rw [conv_list hv, conv_list hv] at h
  have key : xs.map (fun a => (v a).conv np lab) = ys.map (fun a => (v a).conv np lab) := by
    cases xs <;> cases ys <;> cases np <;> simp_all
  clear h
  induction xs generalizing ys with
  | nil => cases ys with
    | nil => exact .nil
    | cons => simp at key
  | cons a xs ih => cases ys with
    | nil => simp at key
    | cons b ys =>
      simp only [List.map_cons, List.cons.injEq] at key
      exact .cons key.1 (ih key.2)

/-- A list of things that are no numbers can be read back. -/
theorem shown_list {α : Type} {d : Default} {v : α → Val} (hv : ∀ a, (v a).number? = none) {xs ys : List α}
    (h : shown np lab d (.list (xs.map v)) = shown np lab d (.list (ys.map v))) : List.Forall₂ (fun a b => (v a).conv np lab = (v b).conv np lab) xs ys := by
  have e : ∀ l : List Val, (Val.list l).omitted d = l.isEmpty := by intro l; cases l <;> cases d <;> rfl
  cases xs with
  | nil => cases ys with
    | nil => exact .nil
    | cons b ys => simp [shown, e] at h
  | cons a xs => cases ys with
    | nil => simp [shown, e] at h
    | cons b ys =>
      simp only [shown, e, List.map_cons, List.isEmpty_cons, Bool.false_eq_true, if_false, Option.some.injEq] at h
      exact conv_list_inj (xs := a :: xs) (ys := b :: ys) hv (by simpa using h)

theorem forall₂_eq_of {α : Type} {R : α → α → Prop} (hR : ∀ a b, R a b → a = b) {xs ys : List α} (h : List.Forall₂ R xs ys) : xs = ys := by
  induction h with
  | nil => rfl
  | cons h _ ih => rw [hR _ _ h, ih]

theorem shown_effSeries {a b : EffDict} (h : shown np lab .none a.series = shown np lab .none b.series) : a = b :=
  shown_dict (fun x _ y _ h1 h2 => Prod.ext h1 (doc_inj (np := np) (by simpa [Val.conv] using h2))) h

theorem shown_effPlain {a b : EffDict} (h : shown np lab .none a.plain = shown np lab .none b.plain) : a = b :=
  shown_dict (fun x _ y _ h1 h2 => Prod.ext h1 (doc_inj (np := np) (by simpa [val_conv] using h2))) h

theorem pairs_inj {a b : List (ℚ × ℚ)} (h : (pairsVal a).conv np lab = (pairsVal b).conv np lab) : a = b := by
  refine forall₂_eq_of (fun x y h => ?_) (conv_list_inj (fun _ => rfl) h)
  cases np <;> simp only [Val.conv, convList, Val.number?, List.all_cons, List.all_nil, Option.isSome_some, Bool.and_true, Bool.and_self,
    Bool.false_eq_true, if_false, if_true, List.filterMap_cons, List.filterMap_nil, Doc.list.injEq, Doc.arr.injEq, List.cons.injEq, Doc.num.injEq, and_true] at h <;>
    exact Prod.ext h.1 h.2

theorem shown_investSeg {a b : Option (List (ℚ × ℚ) × List (String × List (ℚ × ℚ)))} (h : shown np lab .none (investSegVal a) = shown np lab .none (investSegVal b)) : a = b := by
  match a, b, h with
  | none, none, _ => rfl
  | none, some (ys, es), h => simp [shown, investSegVal, Val.omitted, Val.equalsDefault, Val.isEmpty, Val.conv, convList] at h
  | some (xs, es), none, h => simp [shown, investSegVal, Val.omitted, Val.equalsDefault, Val.isEmpty, Val.conv, convList] at h
  | some (xs, es), some (ys, fs), h =>
    have n1 : ∀ p, (pairsVal p).number? = none := fun _ => rfl
    have n2 : ∀ p, (Val.dict p).number? = none := fun _ => rfl
    simp only [shown, investSegVal, Val.omitted, Val.equalsDefault, Val.isEmpty, Val.conv.eq_7, convList, n1, n2, List.all_cons, Option.isSome_none, Bool.false_and, Bool.and_false, Bool.or_self,
      Bool.false_eq_true, if_false, Option.some.injEq, Doc.list.injEq, List.cons.injEq, and_true] at h
    have h1 := pairs_inj h.1
    have h2 : es = fs := shown_dict (np := np) (lab := lab) (d := .required) (g := fun q : String × List (ℚ × ℚ) => some q.1) (v := fun q => pairsVal q.2)
      (fun x _ y _ e1 e2 => Prod.ext (Option.some.inj e1) (pairs_inj e2)) (by
        simp only [shown, h.2]
        have e : ∀ l : List (Option String × Val), (Val.dict l).omitted .required = l.isEmpty := by intro l; cases l <;> rfl
        have h3 := h.2
        simp only [Val.conv, Doc.dict.injEq, convEntries_map] at h3
        have : es.isEmpty = fs.isEmpty := by cases es <;> cases fs <;> simp_all
        simp [e, this])
    rw [h1, h2]


/-! ## Objects -/

theorem onOff_inj {a b : OnOffParams} (h : a.val.conv np lab = b.val.conv np lab) : a = b := by
  unfold OnOffParams.val at h
  rw [obj_conv, obj_conv] at h
  have k := obj_inj (by rfl) (by simp only [List.map_cons, List.map_nil]; decide +kernel) rfl h
  simp only [List.forall₂_cons, List.forall₂_nil_left_iff, and_true] at k
  obtain ⟨h1, h2, h3, h4, h5, h6, h7, h8, h9, h10⟩ := k
  have e1 := shown_optSeries h1
  have e2 := shown_optSeries h2
  have e3 := shown_optSeries h3
  have e4 := shown_optSeries h4
  have e5 := shown_effSeries h5
  have e6 := shown_effSeries h6
  have e7 := shown_bool h7
  have e8 := shown_optNum h8
  have e9 := shown_optNum h9
  have e10 := shown_optNum h10
  cases a; cases b
  simp_all

theorem shown_optOnOff {a b : Option OnOffParams} (h : shown np lab .none (optOnOff a) = shown np lab .none (optOnOff b)) : a = b := by
  match a, b, h with
  | none, none, _ => rfl
  | none, some y, h => simp [shown, optOnOff, OnOffParams.val, Val.omitted, Val.equalsDefault, Val.isEmpty] at h
  | some y, none, h => simp [shown, optOnOff, OnOffParams.val, Val.omitted, Val.equalsDefault, Val.isEmpty] at h
  | some x, some y, h =>
    rw [onOff_inj (np := np) (lab := lab) (a := x) (b := y)]
    simpa [shown, optOnOff, OnOffParams.val, Val.omitted, Val.equalsDefault, Val.isEmpty] using h

end Fields

/-- The sizes of an investment as `InvestmentModel` sees them. -/
def InvestParams.norm (cfg : Cfg) (q : InvestParams) : InvestParams := { q with minimumSize := q.minSize, maximumSize := some (q.maxSize cfg) }

/-- A size or capacity with such an investment. -/
def Size.norm (cfg : Cfg) : Size → Size
  | .num x => .num x
  | .invest q => .invest (q.norm cfg)

/-- The size of a flow as `FlowModel` sees it. -/
def FlowData.normSize (cfg : Cfg) (f : FlowData) : SizeArg :=
  match f.effSize cfg with
  | .num x => .num x
  | .invest q => .invest (q.norm cfg)

/-- A flow with its size as `FlowModel` sees it. -/
def FlowData.norm (cfg : Cfg) (f : FlowData) : FlowData := { f with size := f.normSize cfg }

section Objects
variable {np lab : Bool} {cfg : Cfg}

theorem invest_inj {a b : InvestParams} (h : (a.val cfg).conv np lab = (b.val cfg).conv np lab) : a.norm cfg = b.norm cfg := by
  unfold InvestParams.val at h
  rw [obj_conv, obj_conv] at h
  have k := obj_inj (by rfl) (by simp only [List.map_cons, List.map_nil]; decide +kernel) rfl h
  simp only [List.forall₂_cons, List.forall₂_nil_left_iff, and_true] at k
  obtain ⟨h1, h2, h3, h4, h5, h6, h7, h8⟩ := k
  have e1 := shown_effPlain h1
  have e2 := shown_investSeg h2
  have e3 := shown_effPlain h3
  have e4 := shown_optNum h4
  have e5 := shown_num h5
  have e6 := shown_num h6
  have e7 := shown_bool h7
  have e8 := shown_effPlain h8
  unfold InvestParams.norm
  rw [e5, e6]
  cases a; cases b
  simp_all

theorem shown_size {d : Default} (hd : d = .none ∨ d = .required) {a b : Size} (h : shown np lab d (a.val cfg) = shown np lab d (b.val cfg)) : a.norm cfg = b.norm cfg := by
  match a, b, h with
  | .num x, .num y, h => rw [shown_num h]
  | .num x, .invest q, h => rcases hd with rfl | rfl <;> simp [shown, Size.val, InvestParams.val, Val.omitted, Val.equalsDefault, Val.isEmpty, Val.conv] at h
  | .invest q, .num y, h => rcases hd with rfl | rfl <;> simp [shown, Size.val, InvestParams.val, Val.omitted, Val.equalsDefault, Val.isEmpty, Val.conv] at h
  | .invest p, .invest q, h =>
    refine congrArg Size.invest (invest_inj (np := np) (lab := lab) (cfg := cfg) (a := p) (b := q) ?_)
    rcases hd with rfl | rfl <;> simpa [shown, Size.val, InvestParams.val, Val.omitted, Val.equalsDefault, Val.isEmpty] using h

theorem bus_inj {a b : BusData} (h : a.val.infos np lab = b.val.infos np lab) : a = b := by
  have k := obj_inj (by rfl) (by simp only [List.map_cons, List.map_nil]; decide +kernel) rfl h
  simp only [List.forall₂_cons, List.forall₂_nil_left_iff, and_true] at k
  have e1 := shown_str k.1
  have e2 := shown_optSeries k.2
  cases a; cases b
  simp_all

theorem shown_prev {a b : Option Num} (ha : a ≠ some (.v [])) (hb : b ≠ some (.v [])) (h : shown np lab .none (optPrev a) = shown np lab .none (optPrev b)) : a = b := by
  have o : ∀ x : Num, x ≠ .v [] → x.val.omitted .none = false := by
    intro x hx
    match x, hx with
    | .s x, _ => rfl
    | .v (y :: ys), _ => rfl
  match a, b, h with
  | none, none, _ => rfl
  | none, some y, h => simp [shown, optPrev, o y fun e => hb (by rw [e]), show Val.none.omitted .none = true from rfl] at h
  | some x, none, h => simp [shown, optPrev, o x fun e => ha (by rw [e]), show Val.none.omitted .none = true from rfl] at h
  | some x, some y, h =>
    simp only [shown, optPrev, o x fun e => ha (by rw [e]), o y fun e => hb (by rw [e]), Bool.false_eq_true, if_false, Option.some.injEq, val_conv] at h
    rw [doc_inj h]

/-- The previous flow rate is no empty array. -/
def FlowData.PrevGiven (f : FlowData) : Prop := f.previousFlowRate ≠ some (.v [])

variable {env env' : String → BusData}

theorem flow_inj {i j : Bool} {a b : FlowData} (ha : a.PrevGiven) (hb : b.PrevGiven) (h : (a.val cfg env i).infos np lab = (b.val cfg env' j).infos np lab) : a.norm cfg = b.norm cfg := by
  unfold FlowData.val at h
  have k := obj_inj (by rfl) (by simp only [List.map_cons, List.map_nil]; decide +kernel) (by rfl) h
  simp only [List.forall₂_cons, List.forall₂_nil_left_iff, and_true] at k
  obtain ⟨h1, h2, h3, h4, h5, h6, h7, h8, h9, h10, h11, h12, h13, h14⟩ := k
  have e1 := shown_str h1
  have e2 : a.bus = b.bus := by
    cases lab with
    | true => simpa [shown, BusData.val, Val.omitted, Val.equalsDefault, Val.isEmpty, Val.conv] using h2
    | false =>
      have := bus_inj (np := np) (lab := false) (a := { env a.bus with label := a.bus }) (b := { env' b.bus with label := b.bus }) (by
        simpa [shown, BusData.val, Val.omitted, Val.equalsDefault, Val.isEmpty, Val.conv, Val.infos] using h2)
      simpa using congrArg BusData.label this
  have e3 := shown_effSeries h3
  have e4 := shown_optSeries h4
  have e5 := shown_optNum h5
  have e6 := shown_optNum h6
  have e7 := shown_optNum h7
  have e8 := shown_optNum h8
  have e10 := shown_optOnOff h10
  have e11 := shown_prev ha hb h11
  have e12 := shown_series h12
  have e13 := shown_series h13
  have e14 : a.normSize cfg = b.normSize cfg := by
    have := shown_size (.inl rfl) h14
    unfold FlowData.normSize
    cases h1 : a.effSize cfg <;> cases h2 : b.effSize cfg <;> simp_all [Size.norm]
  unfold FlowData.norm
  rw [e14]
  cases a; cases b
  simp_all

theorem flow_number (i : Bool) (f : FlowData) : (f.val cfg env i).number? = none := rfl

theorem flow_label {i j : Bool} {a b : FlowData} (h : (a.val cfg env i).infos np lab = (b.val cfg env' j).infos np lab) : a.label = b.label := by
  unfold FlowData.val at h
  have k := obj_inj (by rfl) (by simp only [List.map_cons, List.map_nil]; decide +kernel) (by rfl) h
  simp only [List.forall₂_cons] at k
  exact shown_str k.1

theorem flowVal_eq (c : CompData) (l : String) : ∃ (f : FlowData) (i : Bool), c.flowVal cfg env l = f.val cfg env i ∧ f.label = l := by
  unfold CompData.flowVal
  cases h : c.inputs.find? (·.label == l) with
  | some f => exact ⟨f, true, rfl, by simpa using List.find?_some h⟩
  | none =>
    cases h' : c.outputs.find? (·.label == l) with
    | some f => exact ⟨f, false, rfl, by simpa using List.find?_some h'⟩
    | none => exact ⟨{ label := l }, false, rfl, rfl⟩

end Objects

/-- The flows of a component with their sizes as the models see them. -/
def CompData.norm (cfg : Cfg) (c : CompData) : CompData := { c with inputs := c.inputs.map (FlowData.norm cfg), outputs := c.outputs.map (FlowData.norm cfg) }

def ConvData.norm (cfg : Cfg) (c : ConvData) : ConvData := { c with comp := c.comp.norm cfg }

def StorageData.norm (cfg : Cfg) (s : StorageData) : StorageData :=
  { s with charging := s.charging.norm cfg, discharging := s.discharging.norm cfg, capacity := s.capacity.norm cfg }

def TransData.norm (cfg : Cfg) (t : TransData) : TransData :=
  { t with in1 := t.in1.norm cfg, out1 := t.out1.norm cfg, in2 := t.in2.map (FlowData.norm cfg), out2 := t.out2.map (FlowData.norm cfg) }

def Comp.norm (cfg : Cfg) : Comp → Comp
  | .plain c => .plain (c.norm cfg)
  | .converter c => .converter (c.norm cfg)
  | .storage s => .storage (s.norm cfg)
  | .transmission t => .transmission (t.norm cfg)

section Components
variable {np lab : Bool} {cfg : Cfg} {env env' : String → BusData}

theorem flowDocs_inj {i j : Bool} {xs ys : List FlowData} (hx : ∀ f ∈ xs, f.PrevGiven) (hy : ∀ f ∈ ys, f.PrevGiven)
    (h : flowDocs cfg np lab env i xs = flowDocs cfg np lab env' j ys) : xs.map (FlowData.norm cfg) = ys.map (FlowData.norm cfg) := by
  simp only [flowDocs, Doc.list.injEq] at h
  induction xs generalizing ys with
  | nil => cases ys with
    | nil => rfl
    | cons => simp at h
  | cons a xs ih => cases ys with
    | nil => simp at h
    | cons b ys =>
      simp only [List.map_cons, List.cons.injEq] at h
      rw [List.map_cons, List.map_cons, flow_inj (hx _ List.mem_cons_self) (hy _ List.mem_cons_self) h.1,
        ih (fun f hf => hx f (List.mem_cons_of_mem _ hf)) (fun f hf => hy f (List.mem_cons_of_mem _ hf)) h.2]

theorem flow_convLabel {i j : Bool} {a b : FlowData} (h : (a.val cfg env i).conv np lab = (b.val cfg env' j).conv np lab) : a.label = b.label := by
  cases lab with
  | true => simpa [FlowData.val, Val.conv] using h
  | false => exact flow_label (np := np) (lab := false) (i := i) (j := j) (env := env) (env' := env') (cfg := cfg) (by simpa [FlowData.val, Val.conv, Val.infos] using h)

/-! Entries of a description by key -/

theorem lookup_setDoc (k l : String) (x : Doc) (es : List (Option String × Doc)) : (setDoc k x es).lookup (some l) = if l = k then some x else es.lookup (some l) := by
  induction es with
  | nil =>
    by_cases h : l = k
    · simp [setDoc, List.lookup, h]
    · have : (l == k) = false := by simpa using h
      simp [setDoc, List.lookup, h, this]
  | cons e es ih =>
    obtain ⟨m, y⟩ := e
    unfold setDoc
    by_cases h : m = some k
    · by_cases h' : l = k
      · simp [List.lookup, h, h']
      · have : (l == k) = false := by simpa using h'
        simp [List.lookup, h, h', this]
    · simp only [h, if_false, List.lookup_cons, ih]
      by_cases h' : l = k
      · subst h'
        have : (some l == m) = false := by simpa using fun e => h e.symm
        simp [this]
      · simp [h']

theorem lookup_convArgs {as : List (String × Default × Val)} (hd : (as.map (·.1)).Nodup) {n : String} {d : Default} {v : Val} (h : (n, d, v) ∈ as) :
    (convArgs np lab as).lookup (some n) = shown np lab d v := by
  induction as with
  | nil => simp at h
  | cons a as ih =>
    obtain ⟨m, d', w⟩ := a
    simp only [List.map_cons, List.nodup_cons] at hd
    rw [convArgs_cons]
    rcases List.mem_cons.1 h with h | h
    · cases h
      cases hs : shown np lab d v with
      | some x => simp
      | none =>
        simp only [Option.map_none, Option.toList_none, List.nil_append]
        rw [List.lookup_eq_none_iff]
        intro q hq
        obtain ⟨l, e, hl⟩ := convArgs_names np lab as q hq
        have : l ≠ n := fun e' => hd.1 (e' ▸ hl)
        simp [e, this.symm]
    · have hm : m ≠ n := fun e => hd.1 (e ▸ List.mem_map.2 ⟨_, h, rfl⟩)
      cases hs : shown np lab d' w with
      | none => simpa using ih hd.2 h
      | some x =>
        have : (n == m) = false := by simpa using hm.symm
        simpa [List.lookup_cons, this] using ih hd.2 h

theorem forall₂_named {R : String × Default × Val → String × Default × Val → Prop} : ∀ {as bs : List (String × Default × Val)}, as.map (·.1) = bs.map (·.1) →
    (∀ a ∈ as, ∀ b ∈ bs, a.1 = b.1 → R a b) → List.Forall₂ R as bs
  | [], [], _, _ => .nil
  | [], _ :: _, h, _ => by simp at h
  | _ :: _, [], h, _ => by simp at h
  | a :: as, b :: bs, h, k => by
    simp only [List.map_cons, List.cons.injEq] at h
    exact .cons (k a List.mem_cons_self b List.mem_cons_self h.1) (forall₂_named h.2 fun a ha b hb => k a (List.mem_cons_of_mem _ ha) b (List.mem_cons_of_mem _ hb))

theorem comp_doc {c : Comp} {cls : String} {l : Option String} {as : List (String × Default × Val)} (e : c.val cfg env = .obj cls l as []) :
    c.infos cfg np lab env = .dict (setDoc "outputs" (flowDocs cfg np lab env false c.outputFlows)
      (setDoc "inputs" (flowDocs cfg np lab env true c.inputFlows) ((some "class", .str cls) :: convArgs np lab as))) := by
  simp [Comp.infos, e, Val.infos]

theorem comp_class {c d : Comp} {cls cls' : String} {l l' : Option String} {as bs : List (String × Default × Val)} (e : c.val cfg env = .obj cls l as [])
    (e' : d.val cfg env' = .obj cls' l' bs []) (h : c.infos cfg np lab env = d.infos cfg np lab env') : cls = cls' := by
  rw [comp_doc e, comp_doc e', Doc.dict.injEq] at h
  have := congrArg (List.lookup (some "class")) h
  simpa [lookup_setDoc, List.lookup] using this

/-- What equal descriptions of components of one class tell. -/
theorem comp_shown {c d : Comp} {cls cls' : String} {l l' : Option String} {as bs : List (String × Default × Val)} (e : c.val cfg env = .obj cls l as [])
    (e' : d.val cfg env' = .obj cls' l' bs []) (hn : as.map (·.1) = bs.map (·.1)) (hd : ("class" :: as.map (·.1)).Nodup) (h : c.infos cfg np lab env = d.infos cfg np lab env')
    (pc : ∀ f ∈ c.inputFlows ++ c.outputFlows, f.PrevGiven) (pd : ∀ f ∈ d.inputFlows ++ d.outputFlows, f.PrevGiven) :
    c.inputFlows.map (FlowData.norm cfg) = d.inputFlows.map (FlowData.norm cfg) ∧ c.outputFlows.map (FlowData.norm cfg) = d.outputFlows.map (FlowData.norm cfg) ∧
      List.Forall₂ (fun a b => a.1 ≠ "inputs" ∧ a.1 ≠ "outputs" → shown np lab a.2.1 a.2.2 = shown np lab b.2.1 b.2.2) as bs := by
  rw [comp_doc e, comp_doc e', Doc.dict.injEq] at h
  have key := fun k => congrArg (List.lookup (some k)) h
  have k1 := key "inputs"
  have k2 := key "outputs"
  simp only [lookup_setDoc, if_true, show ¬ "inputs" = "outputs" by decide, if_false, Option.some.injEq] at k1 k2
  refine ⟨flowDocs_inj (fun f hf => pc f (List.mem_append_left _ hf)) (fun f hf => pd f (List.mem_append_left _ hf)) k1,
    flowDocs_inj (fun f hf => pc f (List.mem_append_right _ hf)) (fun f hf => pd f (List.mem_append_right _ hf)) k2, forall₂_named hn ?_⟩
  intro a ha b hb hab hx
  have k3 := key a.1
  simp only [lookup_setDoc, hx.1, hx.2, if_false] at k3
  rw [List.nodup_cons] at hd
  have hc : (some a.1 == some "class") = false := by
    have : a.1 ≠ "class" := fun e => hd.1 (e ▸ List.mem_map.2 ⟨a, ha, rfl⟩)
    simpa using this
  simp only [List.lookup_cons, hc] at k3
  rw [lookup_convArgs hd.2 (n := a.1) (d := a.2.1) (v := a.2.2) ha, hab, lookup_convArgs (hn ▸ hd.2) (n := b.1) (d := b.2.1) (v := b.2.2) hb] at k3
  exact k3

theorem shown_prevent {c d : CompData} (h : shown np lab .none (.list (c.prevent.map (c.flowVal cfg env))) = shown np lab .none (.list (d.prevent.map (d.flowVal cfg env')))) :
    c.prevent = d.prevent := by
  have key : ∀ (c : CompData) (env : String → BusData), ∃ fs : List (FlowData × Bool), c.prevent.map (c.flowVal cfg env) = fs.map (fun q => q.1.val cfg env q.2) ∧ fs.map (·.1.label) = c.prevent := by
    intro c env
    generalize hl : c.prevent = ls
    clear hl
    induction ls with
    | nil => exact ⟨[], rfl, rfl⟩
    | cons l ls ih =>
      obtain ⟨fs, e1, e2⟩ := ih
      obtain ⟨f, i, e3, e4⟩ := flowVal_eq (cfg := cfg) (env := env) c l
      exact ⟨(f, i) :: fs, by simp [e1, e3], by simp [e2, e4]⟩
  obtain ⟨fs, e1, e2⟩ := key c env
  obtain ⟨gs, e3, e4⟩ := key d env'
  rw [e1, e3] at h
  rw [← e2, ← e4]
  have o : ∀ l : List Val, (Val.list l).omitted .none = l.isEmpty := by intro l; cases l <;> rfl
  have cv : ∀ (env : String → BusData) (l : List (FlowData × Bool)), l ≠ [] → (Val.list (l.map fun q => q.1.val cfg env q.2)).conv np lab = .list (l.map fun q => (q.1.val cfg env q.2).conv np lab) := by
    intro env l hl
    rw [conv_list fun _ => rfl]
    cases l with
    | nil => exact (hl rfl).elim
    | cons => simp
  have e : fs.map (fun q => (q.1.val cfg env q.2).conv np lab) = gs.map (fun q => (q.1.val cfg env' q.2).conv np lab) := by
    cases fs with
    | nil => cases gs with
      | nil => rfl
      | cons => simp [shown, o] at h
    | cons f fs => cases gs with
      | nil => simp [shown, o] at h
      | cons g gs =>
        simp only [shown, o, List.map_cons, List.isEmpty_cons, Bool.false_eq_true, if_false, Option.some.injEq] at h
        have c1 := cv env (f :: fs) (by simp)
        have c2 := cv env' (g :: gs) (by simp)
        rw [List.map_cons] at c1 c2
        rw [c1, c2, Doc.list.injEq] at h
        exact h
  clear h e1 e2 e3 e4
  induction fs generalizing gs with
  | nil => cases gs with
    | nil => rfl
    | cons => simp at e
  | cons f fs ih => cases gs with
    | nil => simp at e
    | cons g gs =>
      simp only [List.map_cons, List.cons.injEq] at e ⊢
      exact ⟨flow_convLabel e.1, ih _ e.2⟩

theorem plain_inj {a b : CompData} (ha : ∀ f ∈ a.inputs ++ a.outputs, f.PrevGiven) (hb : ∀ f ∈ b.inputs ++ b.outputs, f.PrevGiven)
    (h : (Comp.plain a).infos cfg np lab env = (Comp.plain b).infos cfg np lab env') : a.norm cfg = b.norm cfg := by
  obtain ⟨e2, e5, k⟩ := comp_shown (c := .plain a) (d := .plain b) rfl rfl (by rfl) (by simp only [List.map_cons, List.map_nil]; decide +kernel) h ha hb
  simp only [List.forall₂_cons, List.forall₂_nil_left_iff, and_true] at k
  obtain ⟨h1, -, h3, h4, -, h6⟩ := k
  have e1 := shown_str (h1 (by decide))
  have e4 := shown_optOnOff (h4 (by decide))
  have e6 := shown_prevent (h6 (by decide))
  simp only [Comp.inputFlows, Comp.outputFlows] at e2 e5
  unfold CompData.norm
  rw [e2, e5]
  cases a; cases b
  simp_all

theorem converter_inj {a b : ConvData} (pa : a.comp.prevent = []) (pb : b.comp.prevent = []) (ha : ∀ f ∈ a.comp.inputs ++ a.comp.outputs, f.PrevGiven)
    (hb : ∀ f ∈ b.comp.inputs ++ b.comp.outputs, f.PrevGiven) (h : (Comp.converter a).infos cfg np lab env = (Comp.converter b).infos cfg np lab env') : a.norm cfg = b.norm cfg := by
  obtain ⟨e3, e6, k⟩ := comp_shown (c := .converter a) (d := .converter b) rfl rfl (by rfl) (by simp only [List.map_cons, List.map_nil]; decide +kernel) h ha hb
  simp only [List.forall₂_cons, List.forall₂_nil_left_iff, and_true] at k
  obtain ⟨h1, h2, -, h4, h5, -, h7⟩ := k
  replace h1 := h1 (by decide)
  replace h2 := h2 (by decide)
  replace h5 := h5 (by decide)
  replace h7 := h7 (by decide)
  simp only [Comp.inputFlows, Comp.outputFlows] at e3 e6
  have e1 := shown_str h1
  have e2 : a.factors = b.factors := by
    refine forall₂_eq_of (fun x y h => ?_) (shown_list (fun _ => rfl) h2)
    refine shown_dict (np := np) (lab := lab) (d := .required) (g := fun q : String × Num => some q.1) (v := fun q => .series q.2)
      (fun x _ y _ e1 e2 => Prod.ext (Option.some.inj e1) (doc_inj (np := np) (by simpa [Val.conv] using e2))) ?_
    have o : ∀ l : List (Option String × Val), (Val.dict l).omitted .required = l.isEmpty := by intro l; cases l <;> rfl
    have h3 := h
    simp only [Val.conv, Doc.dict.injEq, convEntries_map] at h3
    have : x.isEmpty = y.isEmpty := by cases x <;> cases y <;> simp_all
    simp only [shown, h, o, List.isEmpty_map, this]
  have e5 := shown_optOnOff h5
  have e7 : a.segments = b.segments := by
    refine shown_dict (fun x _ y _ e1 e2 => Prod.ext (Option.some.inj e1) ?_) h7
    refine forall₂_eq_of (fun p q h => ?_) (conv_list_inj (np := np) (lab := lab) (fun _ => rfl) e2)
    cases np <;> simp only [Val.conv, convList, Val.number?, List.all_cons, Option.isSome_none, Bool.false_and, Bool.and_false,
      Bool.false_eq_true, if_false, Doc.list.injEq, List.cons.injEq, and_true] at h <;> exact Prod.ext (doc_inj h.1) (doc_inj h.2)
  unfold ConvData.norm CompData.norm
  rw [e3, e6]
  obtain ⟨⟨_, _, _, _, _⟩, _, _⟩ := a
  obtain ⟨⟨_, _, _, _, _⟩, _, _⟩ := b
  simp_all

theorem shown_initial {a b : InitCharge} (h : shown np lab (.num 0) a.val = shown np lab (.num 0) b.val) : a = b := by
  match a, b, h with
  | .num x, .num y, h => rw [shown_num h]
  | .none, .none, _ => rfl
  | .lastValueOfSim, .lastValueOfSim, _ => rfl
  | .other, .other, _ => rfl
  | .none, .num y, h | .none, .lastValueOfSim, h | .none, .other, h | .num y, .none, h | .num x, .lastValueOfSim, h | .num x, .other, h
  | .lastValueOfSim, .none, h | .lastValueOfSim, .num y, h | .lastValueOfSim, .other, h | .other, .none, h | .other, .num y, h | .other, .lastValueOfSim, h =>
    simp only [shown, InitCharge.val, Val.omitted, Val.equalsDefault, Val.isEmpty, Val.conv] at h
    simp only [Bool.or_false, Bool.false_eq_true, if_false, decide_eq_true_eq] at h
    first
    | (exfalso; split at h <;> simp at h)
    | (simp at h)

theorem storage_inj {a b : StorageData} (hp : a.preventSimultaneous = b.preventSimultaneous) (a1 : a.charging.PrevGiven) (a2 : a.discharging.PrevGiven) (b1 : b.charging.PrevGiven)
    (b2 : b.discharging.PrevGiven) (h : (Comp.storage a).infos cfg np lab env = (Comp.storage b).infos cfg np lab env') : a.norm cfg = b.norm cfg := by
  obtain ⟨e3, e4, k⟩ := comp_shown (c := .storage a) (d := .storage b) rfl rfl (by rfl) (by simp only [List.map_cons, List.map_nil]; decide +kernel) h
    (by simp [Comp.inputFlows, Comp.outputFlows, a1, a2]) (by simp [Comp.inputFlows, Comp.outputFlows, b1, b2])
  simp only [List.forall₂_cons, List.forall₂_nil_left_iff, and_true] at k
  obtain ⟨h1, h2, h3, h4, h5, h6, h7, h8, h9, h10, h11, h12, h13, h14⟩ := k
  replace h1 := h1 (by decide)
  replace h2 := h2 (by decide)
  replace h5 := h5 (by decide)
  replace h6 := h6 (by decide)
  replace h7 := h7 (by decide)
  replace h8 := h8 (by decide)
  replace h10 := h10 (by decide)
  replace h12 := h12 (by decide)
  replace h13 := h13 (by decide)
  replace h14 := h14 (by decide)
  simp only [Comp.inputFlows, Comp.outputFlows, List.map_cons, List.map_nil, List.cons.injEq, and_true] at e3 e4
  have e1 := shown_str h1
  have e2 := shown_size (.inr rfl) h2
  have e5 := shown_series h5
  have e6 := shown_series h6
  have e7 := shown_initial h7
  have e8 := shown_optNum h8
  have e10 := shown_optNum h10
  have e12 := shown_series h12
  have e13 := shown_series h13
  have e14 := shown_series h14
  unfold StorageData.norm
  rw [e2, e3, e4]
  cases a; cases b
  simp_all

theorem toList_eq {α : Type} : ∀ {a b : Option α}, a.toList = b.toList → a = b
  | none, none, _ => rfl
  | none, some _, h => by simp at h
  | some _, none, h => by simp at h
  | some _, some _, h => by simpa using h

theorem transmission_inj {a b : TransData} (hp : a.preventBoth = b.preventBoth) (ha : ∀ f ∈ (Comp.transmission a).inputFlows ++ (Comp.transmission a).outputFlows, f.PrevGiven)
    (hb : ∀ f ∈ (Comp.transmission b).inputFlows ++ (Comp.transmission b).outputFlows, f.PrevGiven)
    (h : (Comp.transmission a).infos cfg np lab env = (Comp.transmission b).infos cfg np lab env') : a.norm cfg = b.norm cfg := by
  obtain ⟨e3, e6, k⟩ := comp_shown (c := .transmission a) (d := .transmission b) rfl rfl (by rfl) (by simp only [List.map_cons, List.map_nil]; decide +kernel) h ha hb
  simp only [List.forall₂_cons, List.forall₂_nil_left_iff, and_true] at k
  obtain ⟨h1, h2, h3, h4, h5, h6, h7, h8, h9⟩ := k
  have e1 := shown_str (h1 (by decide))
  have e2 := shown_optSeries (h2 (by decide))
  have e5 := shown_optOnOff (h5 (by decide))
  have e9 := shown_optSeries (h9 (by decide))
  simp only [Comp.inputFlows, Comp.outputFlows, List.map_cons, List.cons.injEq, ← Option.toList_map] at e3 e6
  have e4 := toList_eq e3.2
  have e7 := toList_eq e6.2
  unfold TransData.norm
  rw [e3.1, e4, e6.1, e7]
  cases a; cases b
  simp_all

theorem effect_inj {t t' : String → String × String} {a b : EffectData} (h : (a.val t).infos np lab = (b.val t').infos np lab) : a = b := by
  unfold EffectData.val at h
  have k := obj_inj (by rfl) (by simp only [List.map_cons, List.map_nil]; decide +kernel) (by rfl) h
  simp only [List.forall₂_cons, List.forall₂_nil_left_iff, and_true] at k
  obtain ⟨h1, -, h3, h4, h5, h6, h7, h8, -, h10, h11, h12, h13, h14, h15, -⟩ := k
  have e1 := shown_str h1
  have e3 := shown_bool h3
  have e4 := shown_bool h4
  have e5 := shown_optNum h5
  have e6 := shown_optNum h6
  have e7 := shown_optSeries h7
  have e8 := shown_optNum h8
  have e10 := shown_optNum h10
  have e11 := shown_optNum h11
  have e12 := shown_optSeries h12
  have e13 := shown_optNum h13
  have e14 : a.shareInvest = b.shareInvest := shown_dict (fun x _ y _ e1 e2 => Prod.ext (Option.some.inj e1) (doc_inj (np := np) (by simpa [val_conv] using e2))) h14
  have e15 : a.shareOperation = b.shareOperation := shown_dict (fun x _ y _ e1 e2 => Prod.ext (Option.some.inj e1) (doc_inj (np := np) (by simpa [Val.conv] using e2))) h15
  cases a; cases b
  simp_all

end Components

end Flix
