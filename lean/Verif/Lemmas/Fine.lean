import Verif.Lemmas.Frame
import Verif.Spec.Sensible

/-!
# Models without exceptions, part 1: variables, constraints, on/off models
-/

namespace Flix

/-- The variable can be translated. -/
def Var.Fine (x : Var) : Prop := ∃ ds, x.translate = .ok ds

/-- The constraint can be built and translated. -/
def ConReq.Fine (r : ConReq) : Prop := ∃ c rows, r.build = .ok c ∧ c.translate = .ok rows

/-- Everything in the model and its sub models can be built and translated. -/
def MTree.Fine (t : MTree) : Prop := ∀ m ∈ t.nodes, (∀ x ∈ m.vars, x.Fine) ∧ ∀ r ∈ m.cons, r.Fine

theorem nodesAll_mem {m : MTree} {ss : List MTree} : m ∈ MTree.nodesAll ss ↔ ∃ s ∈ ss, m ∈ s.nodes := by
  induction ss with
  | nil => simp [MTree.nodesAll]
  | cons s ss ih => simp [MTree.nodesAll, ih]

theorem fine_node {vs : List Var} {cs : List ConReq} {ss : List MTree} :
    (MTree.node vs cs ss).Fine ↔ (∀ x ∈ vs, x.Fine) ∧ (∀ r ∈ cs, r.Fine) ∧ ∀ s ∈ ss, s.Fine := by
  unfold MTree.Fine
  rw [MTree.nodes]
  simp only [List.forall_mem_cons, nodesAll_mem]
  constructor
  · rintro ⟨⟨h1, h2⟩, h3⟩
    exact ⟨h1, h2, fun s hs m hm => h3 m ⟨s, hs, hm⟩⟩
  · rintro ⟨h1, h2, h3⟩
    exact ⟨⟨h1, h2⟩, fun m ⟨s, hs, hm⟩ => h3 s hs m hm⟩

theorem var_fine {x : Var} (hf : FitsBound x.length x.fixedValue) (hlb : FitsBound x.length x.lb) (hub : FitsBound x.length x.ub) : x.Fine := by
  obtain ⟨lbv, h1, h1l, h1'⟩ := asVectorOpt_fits hlb
  obtain ⟨ubv, h2, h2l, h2'⟩ := asVectorOpt_fits hub
  obtain ⟨fvv, h3, h3l, h3'⟩ := asVectorOpt_fits hf
  unfold Var.Fine Var.translate
  rw [h1, ok_bind, h2, ok_bind, h3, ok_bind]
  apply mapM_good
  intro i hi
  rw [List.mem_range] at hi
  have e1 := pyGet_ok.2 (h1' i hi)
  have e2 := pyGet_ok.2 (h2' i hi)
  have e3 := pyGet_ok.2 (h3' i hi)
  rw [e3, ok_bind]
  cases x.fixedValue with
  | some f => exact ⟨_, rfl⟩
  | none =>
    rw [e1, e2]
    exact ⟨_, rfl⟩

theorem fitsBound_scalar (n : Nat) (b : Option ℚ) : FitsBound n (b.map .s) := by cases b <;> simp [FitsBound, Num.isScalar]
theorem fitsBound_of {n : Nat} {a : Num} (h : a.Fits n) : FitsBound n (some a) := by
  intro b hb; cases hb; exact h

theorem con_fine (n : Nat) {r : ConReq} (h : ∀ op ∈ r.ops, op.Good n) : r.Fine := good_build h

/-! ## Histories -/

theorem anyRows_length {k : Nat} {rs : List (List ℚ)} (h0 : rs ≠ []) (h : ∀ r ∈ rs, r.length = k) : (anyRows rs).length = k := by
  induction rs with
  | nil => exact absurd rfl h0
  | cons r rs ih =>
    cases rs with
    | nil => exact h r (by simp)
    | cons r' rs =>
      show (List.zipWith _ r (anyRows (r' :: rs))).length = k
      rw [List.length_zipWith, ih (by simp) fun x hx => h x (by simp [hx]), h r (by simp), min_self]

/-- The number in a value, if it is one. -/
def Num.number? : Num → Option ℚ
  | .s x => some x
  | .v _ => none

/-- The series in a value, if it is one. -/
def Num.series? : Num → Option (List ℚ)
  | .s _ => none
  | .v xs => some xs

theorem prevOn_eq (eps : ℚ) (ps : List Num) : prevOnOfList eps ps =
    if ps.isEmpty then .ok [0]
    else if (ps.filterMap Num.series?).isEmpty then .ok ((ps.filterMap Num.number?).map (isOn eps))
    else if !(ps.filterMap Num.number?).isEmpty then .error .value
    else match ps.filterMap Num.series? with
      | [] => .error .value
      | a :: as =>
        if as.all (fun b => b.length == a.length) then .ok (anyRows ((a :: as).map (·.map (isOn eps))))
        else .error .value := by
  have e1 : (fun a : Num => match a with | .s x => some x | .v _ => none) = Num.number? := by funext a; cases a <;> rfl
  have e2 : (fun a : Num => match a with | .s _ => none | .v xs => some xs) = Num.series? := by funext a; cases a <;> rfl
  rw [← e1, ← e2]
  rfl

theorem prevOn_good {eps : ℚ} {ps : List Num} (h : SameShape ps) : ∃ bs, prevOnOfList eps ps = .ok bs ∧ bs.length = historyLen ps ∧ 0 < bs.length := by
  cases ps with
  | nil => exact ⟨[0], rfl, rfl, by simp⟩
  | cons p ps =>
    rw [prevOn_eq, if_neg (by simp)]
    rcases h with h | ⟨k, hk, h⟩
    · have k1 : (p :: ps).filterMap Num.series? = [] := List.filterMap_eq_nil_iff.2 fun a ha => by
        have := h a ha
        cases a with
        | s x => rfl
        | v xs => simp [Num.isScalar] at this
      have k2 : ∀ l : List Num, (∀ p ∈ l, p.isScalar = true) → (l.filterMap Num.number?).length = l.length := by
        intro l hl
        induction l with
        | nil => rfl
        | cons a l ih =>
          have := hl a (by simp)
          cases a with
          | v xs => simp [Num.isScalar] at this
          | s x => simp [Num.number?, ih fun p hp => hl p (by simp [hp])]
      rw [k1]
      simp only [List.isEmpty_nil, if_true]
      refine ⟨_, rfl, ?_, ?_⟩
      · rw [List.length_map, k2 _ h]
        have := h p (by simp)
        cases p with
        | s x => rfl
        | v xs => simp [Num.isScalar] at this
      · rw [List.length_map, k2 _ h]; simp
    · have k1 : (p :: ps).filterMap Num.number? = [] := List.filterMap_eq_nil_iff.2 fun a ha => by
        have := (h a ha).1
        cases a with
        | s x => simp [Num.isScalar] at this
        | v xs => rfl
      have k2 : ∀ r ∈ (p :: ps).filterMap Num.series?, r.length = k := by
        intro r hr
        obtain ⟨a, ha, he⟩ := List.mem_filterMap.1 hr
        have := (h a ha).2
        cases a with
        | s x => simp [Num.series?] at he
        | v xs => simp [Num.series?] at he; subst he; exact this
      have hp := h p (by simp)
      cases p with
      | s x => simp [Num.isScalar] at hp
      | v xs =>
        have hx : xs.length = k := hp.2
        have e : (Num.v xs :: ps).filterMap Num.series? = xs :: ps.filterMap Num.series? := by simp [Num.series?]
        rw [e] at k2 ⊢
        rw [k1, if_neg (by simp), if_neg (by simp)]
        simp only
        rw [if_pos (by
          simp only [List.all_eq_true, beq_iff_eq]
          intro b hb
          rw [k2 b (by simp [hb]), hx])]
        have hl := anyRows_length (k := k) (rs := (xs :: ps.filterMap Num.series?).map (·.map (isOn eps))) (by simp) (by
          intro r hr
          obtain ⟨r', hr', rfl⟩ := List.mem_map.1 hr
          rw [List.length_map, k2 r' hr'])
        exact ⟨_, rfl, hl.trans hx.symm, by rw [hl]; exact hk⟩

theorem lastDuration_le (eps : ℚ) (bs : List ℚ) : lastDurationLength eps bs ≤ bs.length := by
  unfold lastDurationLength
  split
  · rename_i z hz
    have := List.mem_of_getLast? hz
    simp at this
    omega
  · exact le_refl _

theorem duration_good {eps : ℚ} {bs : List ℚ} {dt : Num} (h : ∀ ds, dt = .v ds → bs.length ≤ ds.length) : ∃ d, getConsecutiveDuration eps (.v bs) dt = .ok d := by
  cases dt with
  | s d => exact ⟨_, rfl⟩
  | v ds =>
    unfold getConsecutiveDuration
    simp only
    rw [if_neg (by have := lastDuration_le eps bs; have := h ds rfl; omega)]
    exact ⟨_, rfl⟩

/-! ## Durations -/

theorem first_good {n : Nat} {m : Num} (h : m.Fits n) (hn : 0 < n) : ∃ x, m.first = .ok x := by
  cases m with
  | s x => exact ⟨x, rfl⟩
  | v xs =>
    rcases h with h | h
    · simp [Num.isScalar] at h
    · have : xs.length = n := h
      refine ⟨xs[0], ?_⟩
      show pyGet xs 0 = _
      rw [pyGet_ok, List.getElem?_eq_getElem]

theorem getDuration_good {sys : Sys} (hv : sys.Valid) (hn : 1 < sys.n) {p label : String} {binary : Var} (hb : binary.length = sys.n) {bs : List ℚ}
    (hpr : binary.previous = some (.v bs)) (hdt : ∀ ds, sys.prevDt = .v ds → bs.length ≤ ds.length) {minD maxD : Option Num}
    (hmin : ∀ m, minD = some m → m.Fits sys.n) (hmax : ∀ m, maxD = some m → m.Fits sys.n) :
    ∃ dur cs, getDuration sys p label binary minD maxD = .ok (dur, cs) ∧ dur.Fine ∧ ∀ r ∈ cs, r.Fine := by
  obtain ⟨prev, h1⟩ : ∃ prev, prevDuration sys binary = .ok prev := by
    obtain ⟨d, hd⟩ := duration_good (eps := sys.cfg.eps) hdt
    refine ⟨d, ?_⟩
    unfold prevDuration Var.previousValues
    rw [if_pos (by omega), ok_bind, hpr]
    exact hd
  obtain ⟨dt0, h2⟩ : ∃ d, pyGet sys.dt 0 = .ok d := by
    have : 0 < sys.dt.length := by rw [hv.hdt]; omega
    exact ⟨sys.dt[0], by rw [pyGet_ok, List.getElem?_eq_getElem]⟩
  let dur : Var := { label := p ++ "_" ++ label, length := sys.n, lb := some (.s 0), ub := some (maxD.getD (.s (sys.total + prev))),
                     previous := if sys.n > 1 then some (.s prev) else none }
  have hdl : dur.length = sys.n := rfl
  obtain ⟨c3, h3, hc3⟩ : ∃ c3, minDurationCons sys p dur.label dur binary prev minD = .ok c3 ∧ ∀ r ∈ c3, r.Fine := by
    cases hmD : minD with
    | none => exact ⟨[], rfl, by simp⟩
    | some m =>
      have hfit := hmin m hmD
      obtain ⟨m0, hm0⟩ := first_good hfit (by omega)
      unfold minDurationCons
      simp only [hm0, ok_bind]
      refine ⟨_, rfl, ?_⟩
      intro r hr
      rcases List.mem_cons.1 hr with rfl | hr
      · refine con_fine (sys.n - 1) fun op ho => ?_
        simp only [mkIneq, List.mem_cons, List.not_mem_nil, or_false] at ho
        rcases ho with rfl | rfl | rfl
        · exact good_sIdx (by rw [hdl]; intro k hk; simp at hk; omega) (by simp) (by simp)
        · exact good_sIdx (by rw [hb]; intro k hk; simp at hk; omega) (by simpa using dropLast_fits hfit) (by simp)
        · exact good_sIdx (by rw [hb]; intro k hk; simp at hk; omega) (dropLast_fits hfit) (by simp)
      · split at hr
        · rw [List.mem_singleton] at hr
          subst hr
          refine con_fine 1 fun op ho => ?_
          simp only [mkEq, List.mem_cons, List.not_mem_nil, or_false] at ho
          rcases ho with rfl | rfl
          · exact good_sIdx1 (by omega) (by simp)
          · exact good_const (by simp)
        · simp at hr
  refine ⟨dur, ?_⟩
  unfold getDuration
  rw [h1, ok_bind]
  simp only [mkVar_free, ok_bind]
  rw [h2, ok_bind]
  simp only [dur] at h3
  rw [h3, ok_bind]
  refine ⟨_, rfl, ?_, ?_⟩
  · refine var_fine (fitsBound_none _) (fitsBound_of (by simp)) (fitsBound_of ?_)
    cases hm : maxD with
    | none => simp
    | some m => simpa using hmax m hm
  · intro r hr
    rw [List.mem_append, List.mem_append] at hr
    rcases hr with (hr | hr) | hr
    · simp only [List.mem_cons, List.not_mem_nil, or_false] at hr
      rcases hr with rfl | rfl | rfl
      · refine con_fine sys.n fun op ho => ?_
        simp only [mkIneq, List.mem_cons, List.not_mem_nil, or_false] at ho
        rcases ho with rfl | rfl
        · exact good_sAll hdl (by simp)
        · exact good_sAll hb (by simp)
      · refine con_fine (sys.n - 1) fun op ho => ?_
        simp only [mkIneq, List.mem_cons, List.not_mem_nil, or_false] at ho
        rcases ho with rfl | rfl | rfl
        · exact good_sIdx (by intro k hk; simp at hk; show k < sys.n; omega) (by simp) (by simp)
        · exact good_sIdx (by intro k hk; simp at hk; show k < sys.n; omega) (by simp) (by simp)
        · exact good_const (Or.inr (by simp [hv.hdt]))
      · refine con_fine (sys.n - 1) fun op ho => ?_
        simp only [mkIneq, List.mem_cons, List.not_mem_nil, or_false] at ho
        rcases ho with rfl | rfl | rfl | rfl
        · exact good_sIdx (by intro k hk; simp at hk; show k < sys.n; omega) (by simp) (by simp)
        · exact good_sIdx (by intro k hk; simp at hk; show k < sys.n; omega) (by simp) (by simp)
        · exact good_sIdx (by rw [hb]; intro k hk; simp at hk; omega) (by simp) (by simp)
        · exact good_const (Or.inr (by simp [hv.hdt]))
    · exact hc3 r hr
    · rw [List.mem_singleton] at hr
      subst hr
      refine con_fine 1 fun op ho => ?_
      simp only [mkEq, List.mem_cons, List.not_mem_nil, or_false] at ho
      rcases ho with rfl | rfl
      · exact good_sIdx1 (by show 0 < sys.n; omega) (by simp)
      · exact good_sIdx1 (by omega) (by simp)


/-! ## On/off models -/

theorem sumUb_good {n : Nat} {ds : List (Var × Num × Num)} (h : ∀ d ∈ ds, d.2.2.Fits n) : ∀ {a : Num}, a.Fits n →
    ∃ c, ds.foldlM (fun a d => Num.add a d.2.2) a = .ok c ∧ c.Fits n := by
  induction ds with
  | nil => exact fun {a} ha => ⟨a, rfl, ha⟩
  | cons d ds ih =>
    intro a ha
    obtain ⟨c, hc, hf, _⟩ := zip_fits (f := (· + ·)) ha (h d (by simp))
    obtain ⟨c', hc', hf'⟩ := ih (fun d hd => h d (by simp [hd])) hf
    refine ⟨c', ?_, hf'⟩
    rw [List.foldlM_cons]
    show (Num.add a d.2.2 >>= _) = _
    unfold Num.add
    rw [hc, ok_bind]
    exact hc'

theorem onCons_good {sys : Sys} {p : String} {on : Var} (ho : on.length = sys.n) {ds : List (Var × Num × Num)} (h0 : ds ≠ [])
    (hd : ∀ d ∈ ds, d.1.length = sys.n ∧ d.2.1.Fits sys.n ∧ d.2.2.Fits sys.n) :
    ∃ cs, onConstraints sys p on ds = .ok cs ∧ ∀ r ∈ cs, r.Fine := by
  have gI : ∀ (x : Var) (f : Num), x.length = sys.n → f.Fits sys.n → (sIdx x f (List.range sys.n)).Good sys.n := fun x f hx hf =>
    good_sIdx (by intro k hk; rw [hx]; simpa using hk) hf (by simp)
  match ds, h0, hd with
  | [(x, lb, ub)], _, hd =>
    obtain ⟨h1, h2, h3⟩ := hd (x, lb, ub) (by simp)
    refine ⟨_, rfl, fun r hr => ?_⟩
    simp only [List.mem_cons, List.not_mem_nil, or_false] at hr
    rcases hr with rfl | rfl
    · refine con_fine sys.n fun op ho' => ?_
      simp only [mkIneq, List.mem_cons, List.not_mem_nil, or_false] at ho'
      rcases ho' with rfl | rfl
      · exact gI _ _ h1 (by simp)
      · exact gI _ _ ho (by simpa using h2)
    · refine con_fine sys.n fun op ho' => ?_
      simp only [mkIneq, List.mem_cons, List.not_mem_nil, or_false] at ho'
      rcases ho' with rfl | rfl
      · exact gI _ _ h1 (by simp)
      · exact gI _ _ ho (by simpa using h3)
  | d1 :: d2 :: ds, _, hd =>
    obtain ⟨c, hc, hcf⟩ := sumUb_good (n := sys.n) (ds := d1 :: d2 :: ds) (fun d h => (hd d h).2.2) (a := .s 0) (by simp)
    unfold onConstraints
    simp only [hc, ok_bind]
    refine ⟨_, rfl, fun r hr => ?_⟩
    simp only [List.mem_cons, List.not_mem_nil, or_false] at hr
    rcases hr with rfl | rfl
    · refine con_fine sys.n fun op ho' => ?_
      simp only [mkIneq, List.mem_append, List.mem_map, List.mem_singleton] at ho'
      rcases ho' with ⟨d, hdm, rfl⟩ | rfl
      · exact gI _ _ (hd d hdm).1 (by simp)
      · exact gI _ _ ho (by simp)
    · refine con_fine sys.n fun op ho' => ?_
      simp only [mkIneq, List.mem_append, List.mem_map, List.mem_singleton] at ho'
      rcases ho' with ⟨d, hdm, rfl⟩ | rfl
      · exact gI _ _ (hd d hdm).1 (by simp)
      · exact gI _ _ ho (by simpa using hcf)

theorem switch_good {sys : Sys} (hn : 1 < sys.n) {p : String} {on swOn swOff nr : Var} (ho : on.length = sys.n) (h1 : swOn.length = sys.n)
    (h2 : swOff.length = sys.n) (h3 : nr.length = 1) {bs : List ℚ} (hb : bs ≠ []) (hpr : on.previous = some (.v bs)) :
    ∃ cs, switchConstraints sys p on swOn swOff nr = .ok cs ∧ ∀ r ∈ cs, r.Fine := by
  obtain ⟨l, hl⟩ : ∃ l, lastPrevious on = .ok l := by
    unfold lastPrevious Var.previousValues
    rw [if_pos (by omega), ok_bind, hpr]
    simp only [List.getLast?_eq_some_getLast hb]
    exact ⟨_, rfl⟩
  unfold switchConstraints
  rw [hl, ok_bind]
  refine ⟨_, rfl, fun r hr => ?_⟩
  simp only [List.mem_cons, List.not_mem_nil, or_false] at hr
  have gl : ∀ (x : Var) (q : ℚ), x.length = sys.n → (sIdx x (.s q) (List.range' 1 (sys.n - 1))).Good (sys.n - 1) := fun x q hx =>
    good_sIdx (by intro k hk; simp at hk; omega) (by simp) (by simp)
  have ge : ∀ (x : Var) (q : ℚ), x.length = sys.n → (sIdx x (.s q) (List.range (sys.n - 1))).Good (sys.n - 1) := fun x q hx =>
    good_sIdx (by intro k hk; simp at hk; omega) (by simp) (by simp)
  rcases hr with rfl | rfl | rfl | rfl
  · refine con_fine (sys.n - 1) fun op ho' => ?_
    simp only [mkEq, List.mem_cons, List.not_mem_nil, or_false] at ho'
    rcases ho' with rfl | rfl | rfl | rfl
    · exact gl _ _ h1
    · exact gl _ _ h2
    · exact gl _ _ ho
    · exact ge _ _ ho
  · refine con_fine 1 fun op ho' => ?_
    simp only [mkEq, List.mem_cons, List.not_mem_nil, or_false] at ho'
    rcases ho' with rfl | rfl | rfl | rfl
    · exact good_sIdx1 (by omega) (by simp)
    · exact good_sIdx1 (by omega) (by simp)
    · exact good_sIdx1 (by omega) (by simp)
    · exact good_const (by simp)
  · refine con_fine sys.n fun op ho' => ?_
    simp only [mkIneq, List.mem_cons, List.not_mem_nil, or_false] at ho'
    rcases ho' with rfl | rfl | rfl
    · exact good_sAll h1 (by simp)
    · exact good_sAll h2 (by simp)
    · exact good_const (by simp)
  · refine con_fine 1 fun op ho' => ?_
    simp only [mkEq, List.mem_cons, List.not_mem_nil, or_false] at ho'
    rcases ho' with rfl | rfl
    · exact good_sAll1 h3 (by simp)
    · exact good_sSum (by simp)

theorem sharesTo_good {n : Nat} {tg : Target} {el name : String} {vals : EffDict} {factor : Num} {x : Option Var} (hv : vals.Series n) (hf : factor.Fits n) :
    ∃ cs, sharesTo tg el name vals factor x = .ok cs := by
  unfold sharesTo
  apply mapM_good
  rintro ⟨e, a⟩ ha
  obtain ⟨c, hc, _⟩ := zip_fits (f := (· * ·)) (hv _ ha) hf
  show ∃ b, (Num.mul a factor >>= _) = _
  unfold Num.mul
  rw [hc]
  exact ⟨_, rfl⟩

theorem onOff_good {sys : Sys} (hv : sys.Valid) (hn : 1 < sys.n) {el : String} {q : OnOffParams} {ds : List (Var × Num × Num)} (hq : q.Fits sys.n)
    (he : q.EffFits sys.n) (h0 : ds ≠ []) (hd : ∀ d ∈ ds, d.1.length = sys.n ∧ d.2.1.Fits sys.n ∧ d.2.2.Fits sys.n)
    (hs : SameShape (ds.filterMap (·.1.previous)))
    (hdt : q.HasRuns → ∀ l, sys.prevDt = .v l → historyLen (ds.filterMap (·.1.previous)) ≤ l.length) :
    ∃ o, onOffModel sys el q ds = .ok o ∧ o.tree.Fine := by
  obtain ⟨bs, hb1, hb2, hb3⟩ := prevOn_good (eps := sys.cfg.eps) hs
  have hprev : previousOnValues sys.cfg.eps ((raised sys.cfg.eps ds).map (·.1)) = .ok bs := by
    unfold previousOnValues
    have : ((raised sys.cfg.eps ds).map (·.1)).mapM Var.previousValues = .ok (ds.map (·.1.previous)) := by
      rw [mapM_ok]
      unfold raised
      rw [List.map_map, List.forall₂_map_left_iff, List.forall₂_map_right_iff, List.forall₂_same]
      intro d hdm
      show d.1.previousValues = _
      unfold Var.previousValues
      rw [if_pos (by rw [(hd d hdm).1]; exact hn)]
    rw [this, ok_bind, List.filterMap_map]
    exact hb1
  let on : Var := { label := ooP el ++ "_" ++ "on", length := sys.n, isBinary := true, previous := if sys.n > 1 then some (.v bs) else none }
  have hon : on.previous = some (.v bs) := if_pos hn
  let total : Var := { label := ooP el ++ "_" ++ "totalOnHours", length := 1, lb := q.onHoursTotalMin.map .s, ub := q.onHoursTotalMax.map .s }
  have hne : bs ≠ [] := by intro e; rw [e] at hb3; simp at hb3
  obtain ⟨cOn, h1, g1⟩ := onCons_good (sys := sys) (p := ooP el) (on := on) rfl (ds := raised sys.cfg.eps ds) (by simpa [raised] using h0) (by
    intro d hdm
    unfold raised at hdm
    obtain ⟨d', hd', rfl⟩ := List.mem_map.1 hdm
    obtain ⟨a, b, c⟩ := hd d' hd'
    exact ⟨a, by simpa using b, c⟩)
  obtain ⟨off, h2, g2⟩ : ∃ off, offOpt sys (ooP el) q on bs = .ok off ∧ (q.useOff = true → ∃ x cs, off = some (x, cs) ∧ x.length = sys.n ∧
      x.previous = some (.v (bs.map (1 - ·)))) ∧ ∀ x cs, off = some (x, cs) → x.Fine ∧ ∀ r ∈ cs, r.Fine := by
    unfold offOpt
    by_cases hu : q.useOff = true
    · rw [if_pos hu]
      unfold offPart
      simp only [mkVar_free, ok_bind]
      refine ⟨_, rfl, fun _ => ⟨_, _, rfl, rfl, if_pos hn⟩, ?_⟩
      intro x cs hx
      cases hx
      refine ⟨var_fine (fitsBound_none _) (fitsBound_none _) (fitsBound_none _), fun r hr => ?_⟩
      rw [List.mem_singleton] at hr
      subst hr
      refine con_fine sys.n fun op ho' => ?_
      simp only [mkEq, List.mem_cons, List.not_mem_nil, or_false] at ho'
      rcases ho' with rfl | rfl | rfl
      · exact good_sIdx (by intro k hk; simpa using hk) (by simp) (by simp)
      · exact good_sIdx (by intro k hk; simpa using hk) (by simp) (by simp)
      · exact good_const (by simp)
    · rw [if_neg hu]
      exact ⟨none, rfl, fun h => absurd h hu, by simp⟩
  obtain ⟨dOn, h3, g3⟩ : ∃ dOn, durationOnOpt sys (ooP el) q on = .ok dOn ∧ ∀ x cs, dOn = some (x, cs) → x.Fine ∧ ∀ r ∈ cs, r.Fine := by
    unfold durationOnOpt
    by_cases hu : q.useConsecOn = true
    · rw [if_pos hu]
      have hr : q.HasRuns := by
        simp only [OnOffParams.useConsecOn, Bool.or_eq_true, Option.isSome_iff_ne_none] at hu
        exact hu.elim Or.inl fun h => Or.inr (Or.inl h)
      obtain ⟨dur, cs, e, f1, f2⟩ := getDuration_good hv hn (p := ooP el) (label := "consecutiveOnHours") (binary := on) rfl hon
        (fun l hl => by rw [hb2]; exact hdt hr l hl) hq.onMin hq.onMax
      rw [e]
      refine ⟨_, rfl, fun x cs' hx => ?_⟩
      cases hx
      exact ⟨f1, f2⟩
    · rw [if_neg hu]
      exact ⟨none, rfl, by simp⟩
  obtain ⟨dOff, h4, g4⟩ : ∃ dOff, durationOffOpt sys (ooP el) q (off.map (·.1)) = .ok dOff ∧ ∀ x cs, dOff = some (x, cs) → x.Fine ∧ ∀ r ∈ cs, r.Fine := by
    unfold durationOffOpt
    by_cases hu : q.useConsecOff = true
    · rw [if_pos hu]
      obtain ⟨x, cs, rfl, hx, hxp⟩ := g2.1 hu
      have hr : q.HasRuns := by
        simp only [OnOffParams.useConsecOff, Bool.or_eq_true, Option.isSome_iff_ne_none] at hu
        exact hu.elim (fun h => Or.inr (Or.inr (Or.inl h))) fun h => Or.inr (Or.inr (Or.inr h))
      obtain ⟨dur, cs, e, f1, f2⟩ := getDuration_good hv hn (p := ooP el) (label := "consecutiveOffHours") (binary := x) hx hxp
        (fun l hl => by rw [List.length_map, hb2]; exact hdt hr l hl) hq.offMin hq.offMax
      simp only [Option.map_some, e]
      refine ⟨_, rfl, fun x cs' hx => ?_⟩
      cases hx
      exact ⟨f1, f2⟩
    · rw [if_neg hu]
      exact ⟨none, rfl, by simp⟩
  let swOn : Var := { label := ooP el ++ "_" ++ "switchOn", length := sys.n, isBinary := true }
  let swOff : Var := { label := ooP el ++ "_" ++ "switchOff", length := sys.n, isBinary := true }
  let nr : Var := { label := ooP el ++ "_" ++ "nrSwitchOn", length := 1, ub := q.switchOnTotalMax.map .s }
  obtain ⟨cSw, h5, g5⟩ := switch_good (sys := sys) hn (p := ooP el) (on := on) (swOn := swOn) (swOff := swOff) (nr := nr) rfl rfl rfl rfl hne hon
  have hsw : switchOpt sys (ooP el) q on = .ok (some (swOn, swOff, nr, cSw)) := by
    unfold switchOpt
    rw [if_pos (by simp [OnOffParams.useSwitchOn])]
    unfold switchPart
    simp only [mkVar_free, ok_bind]
    simp only [swOn, swOff, nr] at h5
    simp only [ite_self]
    rw [h5]
    rfl
  obtain ⟨sh1, h6⟩ := sharesTo_good (n := sys.n) (tg := .operation) (el := el) (name := "switch_on_effects") (x := some swOn) he.1 (fits_s _ 1)
  obtain ⟨sh2, h7⟩ := sharesTo_good (n := sys.n) (tg := .operation) (el := el) (name := "running_hour_effects") (x := some on) he.2 (dt_fits hv)
  have key : ∃ o, onOffModel sys el q ds = .ok o := by
    unfold onOffModel
    change ∃ o, (previousOnValues sys.cfg.eps ((raised sys.cfg.eps ds).map (·.1)) >>= _) = _
    rw [hprev, ok_bind]
    simp only [mkVar_free, ok_bind]
    change ∃ o, (onConstraints sys (ooP el) on (raised sys.cfg.eps ds) >>= _) = _
    rw [h1, ok_bind]
    change ∃ o, (offOpt sys (ooP el) q on bs >>= _) = _
    rw [h2, ok_bind]
    change ∃ o, (durationOnOpt sys (ooP el) q on >>= _) = _
    rw [h3, ok_bind]
    change ∃ o, (durationOffOpt sys (ooP el) q (off.map (·.1)) >>= _) = _
    rw [h4, ok_bind]
    change ∃ o, (switchOpt sys (ooP el) q on >>= _) = _
    rw [hsw, ok_bind]
    simp only [Option.map_some]
    rw [h6, ok_bind]
    change ∃ o, (sharesTo .operation el "running_hour_effects" q.effectsPerRunningHour (.v sys.dt) (some on) >>= _) = _
    rw [h7, ok_bind]
    exact ⟨_, rfl⟩
  obtain ⟨o, ho⟩ := key
  refine ⟨o, ho, ?_⟩
  obtain ⟨prevOn, cOn', off', dOn', dOff', swOn', swOff', nr', cSw', e1, e2, e3, e4, e5, e6, e7, e8, e9, e10, e11, _, _, _, _, _, _, ev, ec, _⟩ := onOff_inv ho
  have hprev' : previousOnValues sys.cfg.eps (ds.map (·.1)) = .ok bs := by
    have : (raised sys.cfg.eps ds).map (·.1) = ds.map (·.1) := by unfold raised; rw [List.map_map]; rfl
    rw [← this]; exact hprev
  have : prevOn = bs := Except.ok.inj (e1.symm.trans hprev')
  subst this
  have hon' : o.on = on := e2
  rw [hon'] at e4 e5 e6 e11 ev ec
  have := Except.ok.inj (e4.symm.trans h1); subst this
  have := Except.ok.inj (e5.symm.trans h2); subst this
  have := Except.ok.inj (e6.symm.trans h3); subst this
  have := Except.ok.inj (e7.symm.trans h4); subst this
  have e8' : swOn' = swOn := e8
  have e9' : swOff' = swOff := e9
  have e10' : nr' = nr := e10
  rw [e8', e9', e10'] at e11 ev
  have := Except.ok.inj (e11.symm.trans h5); subst this
  show (MTree.node o.vars o.cons []).Fine
  rw [fine_node]
  have opt : ∀ (a : Option (Var × List ConReq)), (∀ x cs, a = some (x, cs) → x.Fine ∧ ∀ r ∈ cs, r.Fine) →
      (∀ x ∈ (a.map (·.1)).toList, x.Fine) ∧ ∀ r ∈ (a.map (·.2)).getD [], r.Fine := by
    intro a ha
    cases a with
    | none => simp
    | some q =>
      obtain ⟨x, cs⟩ := q
      obtain ⟨a1, a2⟩ := ha x cs rfl
      exact ⟨by simpa using a1, by simpa using a2⟩
  refine ⟨?_, ?_, by simp⟩
  · rw [ev]
    intro x hx
    simp only [List.mem_append, List.mem_cons, List.not_mem_nil, or_false] at hx
    rcases hx with ((((rfl | rfl) | hx) | hx) | hx) | rfl | rfl | rfl
    · exact var_fine (fitsBound_none _) (fitsBound_none _) (fitsBound_none _)
    · rw [e3]
      exact var_fine (fitsBound_none _) (fitsBound_scalar _ _) (fitsBound_scalar _ _)
    · exact (opt _ g2.2).1 x hx
    · exact (opt _ g3).1 x hx
    · exact (opt _ g4).1 x hx
    · exact var_fine (fitsBound_none _) (fitsBound_none _) (fitsBound_none _)
    · exact var_fine (fitsBound_none _) (fitsBound_none _) (fitsBound_none _)
    · exact var_fine (fitsBound_none _) (fitsBound_none _) (fitsBound_scalar _ _)
  · rw [ec]
    intro r hr
    simp only [List.mem_append, List.mem_singleton] at hr
    rcases hr with ((((rfl | hr) | hr) | hr) | hr) | hr
    · refine con_fine 1 fun op ho' => ?_
      simp only [mkEq, List.mem_cons, List.not_mem_nil, or_false] at ho'
      rcases ho' with rfl | rfl
      · exact good_sSum (Or.inr (by show sys.dt.length = sys.n; exact hv.hdt))
      · exact good_sAll1 (by rw [e3]) (by simp)
    · exact g1 r hr
    · exact (opt _ g2.2).2 r hr
    · exact (opt _ g3).2 r hr
    · exact (opt _ g4).2 r hr
    · exact g5 r hr

end Flix
