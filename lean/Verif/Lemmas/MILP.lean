import Verif.Lemmas.LP
import Verif.Lemmas.Sem
import Verif.Lemmas.System

/-!
# Mixed-integer linear models attain their minimum
-/

namespace Flix

/-- Terms with variables in `K`, as coefficients of `K`. -/
def coefOf (K : List (String × Nat)) (ts : List (ℚ × String × Nat)) (i : Fin K.length) : ℚ := ((ts.filter fun t => t.2 = K.get i).map (·.1)).sum

theorem termsVal_coef {K : List (String × Nat)} (hK : K.Nodup) (σ : Assignment) : ∀ (ts : List (ℚ × String × Nat)), (∀ t ∈ ts, t.2 ∈ K) →
    termsVal σ ts = ∑ i, coefOf K ts i * σ (K.get i).1 (K.get i).2
  | [], _ => by simp [termsVal, coefOf]
  | t :: ts, h => by
    have ih := termsVal_coef hK σ ts fun t ht => h t (List.mem_cons_of_mem _ ht)
    obtain ⟨j, hj⟩ := List.get_of_mem (h t List.mem_cons_self)
    have hc : ∀ i, coefOf K (t :: ts) i = (if i = j then t.1 else 0) + coefOf K ts i := by
      intro i
      unfold coefOf
      by_cases e : i = j
      · subst e
        rw [List.filter_cons_of_pos (by simpa only [decide_eq_true_eq] using hj.symm)]
        simp
      · rw [List.filter_cons_of_neg]
        · simp [e]
        · simp only [decide_eq_true_eq]
          intro hh
          rw [← hj] at hh
          exact e ((List.nodup_iff_injective_get.1 hK) hh).symm
    have : termsVal σ (t :: ts) = t.1 * σ t.2.1 t.2.2 + termsVal σ ts := by simp [termsVal]
    rw [this, ih]
    simp only [hc, add_mul, Finset.sum_add_distrib]
    congr 1
    rw [Finset.sum_eq_single j]
    · rw [if_pos rfl, hj]
    · intro i _ e; simp [e]
    · simp

/-- The assignment with the given values of `K`. -/
noncomputable def ofVec (K : List (String × Nat)) (x : Fin K.length → ℚ) : Assignment := fun l t => if h : ∃ i, K.get i = (l, t) then x h.choose else 0

theorem ofVec_get {K : List (String × Nat)} (hK : K.Nodup) (x : Fin K.length → ℚ) (i : Fin K.length) : ofVec K x (K.get i).1 (K.get i).2 = x i := by
  unfold ofVec
  have h : ∃ j, K.get j = ((K.get i).1, (K.get i).2) := ⟨i, rfl⟩
  rw [dif_pos h]
  congr 1
  exact (List.nodup_iff_injective_get.1 hK) h.choose_spec

/-- A row as forms. -/
def rowForms (K : List (String × Nat)) (r : Row) : List (LP.Form K.length) :=
  match r.kind with
  | .ineq => [⟨coefOf K r.terms, 0, -r.rhs⟩]
  | .eq => [⟨coefOf K r.terms, 0, -r.rhs⟩, ⟨fun i => -coefOf K r.terms i, 0, r.rhs⟩]

theorem rowForms_iff {K : List (String × Nat)} (hK : K.Nodup) {r : Row} (hr : ∀ t ∈ r.terms, t.2 ∈ K) {σ : Assignment} {x : Fin K.length → ℚ}
    (hx : ∀ i, σ (K.get i).1 (K.get i).2 = x i) : r.Holds σ ↔ LP.Holds (rowForms K r) x 0 := by
  have e := termsVal_coef hK σ r.terms hr
  simp only [hx] at e
  unfold Row.Holds rowForms LP.Holds
  rw [e]
  cases r.kind with
  | ineq => simp [Kind.rel, LP.Form.val]
  | eq =>
    simp only [Kind.rel, List.mem_cons, List.not_mem_nil, or_false, forall_eq_or_imp, forall_eq, LP.Form.val, neg_mul, Finset.sum_neg_distrib]
    constructor
    · intro h; constructor <;> linarith
    · rintro ⟨a, b⟩; linarith

/-- Linear rows over finitely many variables, bounded below: the minimum is attained. -/
theorem lp_attained (R : List Row) (obj : List (ℚ × String × Nat)) {σ₀ : Assignment} (h₀ : ∀ r ∈ R, r.Holds σ₀) {b : ℚ}
    (hb : ∀ σ, (∀ r ∈ R, Row.Holds σ r) → b ≤ termsVal σ obj) :
    ∃ σ, (∀ r ∈ R, Row.Holds σ r) ∧ ∀ σ', (∀ r ∈ R, Row.Holds σ' r) → termsVal σ obj ≤ termsVal σ' obj := by
  let K : List (String × Nat) := ((obj ++ R.flatMap (·.terms)).map (·.2)).dedup
  have hK : K.Nodup := List.nodup_dedup _
  have hobj : ∀ t ∈ obj, t.2 ∈ K := fun t ht => List.mem_dedup.2 (List.mem_map_of_mem (List.mem_append_left _ ht))
  have hR : ∀ r ∈ R, ∀ t ∈ r.terms, t.2 ∈ K := fun r hr t ht =>
    List.mem_dedup.2 (List.mem_map_of_mem (List.mem_append_right _ (List.mem_flatMap.2 ⟨r, hr, ht⟩)))
  let L := R.flatMap (rowForms K)
  have hiff : ∀ (σ : Assignment) x, (∀ i, σ (K.get i).1 (K.get i).2 = x i) → ((∀ r ∈ R, Row.Holds σ r) ↔ LP.Holds L x 0) := by
    intro σ x hx
    constructor
    · intro h f hf
      obtain ⟨r, hr, hf⟩ := List.mem_flatMap.1 hf
      exact (rowForms_iff hK (hR r hr) hx).1 (h r hr) f hf
    · intro h r hr
      exact (rowForms_iff hK (hR r hr) hx).2 fun f hf => h f (List.mem_flatMap.2 ⟨r, hr, hf⟩)
  have hpar : ∀ f ∈ L, f.par = 0 := by
    intro f hf
    obtain ⟨r, _, hf⟩ := List.mem_flatMap.1 hf
    unfold rowForms at hf
    split at hf <;> simp only [List.mem_cons, List.not_mem_nil, or_false] at hf
    · subst hf; rfl
    · rcases hf with rfl | rfl <;> rfl
  obtain ⟨x, hx, hmin⟩ := LP.attained L hpar (coefOf K obj) (x₀ := fun i => σ₀ (K.get i).1 (K.get i).2) ((hiff σ₀ _ fun _ => rfl).1 h₀) (b := b) (by
    intro x hx
    have := hb (ofVec K x) ((hiff _ x (ofVec_get hK x)).2 hx)
    rw [termsVal_coef hK _ obj hobj] at this
    simpa only [ofVec_get hK] using this)
  refine ⟨ofVec K x, (hiff _ x (ofVec_get hK x)).2 hx, fun σ' h' => ?_⟩
  rw [termsVal_coef hK _ obj hobj, termsVal_coef hK _ obj hobj]
  simp only [ofVec_get hK]
  exact hmin _ ((hiff σ' _ fun _ => rfl).1 h')

/-- The same with some entries restricted to 0 and 1. -/
theorem milp_attained (obj : List (ℚ × String × Nat)) : ∀ (bins : List (String × Nat)) (R : List Row) {σ₀ : Assignment},
    (∀ r ∈ R, r.Holds σ₀) → (∀ k ∈ bins, σ₀ k.1 k.2 = 0 ∨ σ₀ k.1 k.2 = 1) → ∀ {b : ℚ},
    (∀ σ, (∀ r ∈ R, Row.Holds σ r) → (∀ k ∈ bins, σ k.1 k.2 = 0 ∨ σ k.1 k.2 = 1) → b ≤ termsVal σ obj) →
    ∃ σ, ((∀ r ∈ R, Row.Holds σ r) ∧ ∀ k ∈ bins, σ k.1 k.2 = 0 ∨ σ k.1 k.2 = 1) ∧
      ∀ σ', (∀ r ∈ R, Row.Holds σ' r) → (∀ k ∈ bins, σ' k.1 k.2 = 0 ∨ σ' k.1 k.2 = 1) → termsVal σ obj ≤ termsVal σ' obj
  | [], R, σ₀, h₀, _, b, hb => by
    obtain ⟨σ, h1, h2⟩ := lp_attained R obj h₀ (b := b) fun σ h => hb σ h (by simp)
    exact ⟨σ, ⟨h1, by simp⟩, fun σ' h _ => h2 σ' h⟩
  | k :: bins, R, σ₀, h₀, hk, b, hb => by
    let fix : ℚ → Row := fun v => ⟨.eq, [(1, k)], v⟩
    have hfix : ∀ v (σ : Assignment), Row.Holds σ (fix v) ↔ σ k.1 k.2 = v := by
      intro v σ
      simp [fix, Row.Holds, Kind.rel, termsVal]
    have part : ∀ v : ℚ, (v = 0 ∨ v = 1) → ∀ τ : Assignment, (∀ r ∈ R, Row.Holds τ r) → (∀ k' ∈ bins, τ k'.1 k'.2 = 0 ∨ τ k'.1 k'.2 = 1) → τ k.1 k.2 = v →
        ∃ σ, (((∀ r ∈ R, Row.Holds σ r) ∧ ∀ k' ∈ bins, σ k'.1 k'.2 = 0 ∨ σ k'.1 k'.2 = 1) ∧ σ k.1 k.2 = v) ∧
          ∀ σ', (∀ r ∈ R, Row.Holds σ' r) → (∀ k' ∈ bins, σ' k'.1 k'.2 = 0 ∨ σ' k'.1 k'.2 = 1) → σ' k.1 k.2 = v → termsVal σ obj ≤ termsVal σ' obj := by
      intro v hv τ t1 t2 t3
      obtain ⟨σ, ⟨s1, s2⟩, s3⟩ := milp_attained obj bins (fix v :: R) (σ₀ := τ) (by
        intro r hr
        rcases List.mem_cons.1 hr with rfl | hr
        · exact (hfix v τ).2 t3
        · exact t1 r hr) t2 (b := b) (by
        intro σ h1 h2
        refine hb σ (fun r hr => h1 r (List.mem_cons_of_mem _ hr)) ?_
        intro k' hk'
        rcases List.mem_cons.1 hk' with rfl | hk'
        · rw [(hfix v σ).1 (h1 _ List.mem_cons_self)]; exact hv
        · exact h2 k' hk')
      refine ⟨σ, ⟨⟨fun r hr => s1 r (List.mem_cons_of_mem _ hr), s2⟩, (hfix v σ).1 (s1 _ List.mem_cons_self)⟩, fun σ' h1 h2 h3 => ?_⟩
      refine s3 σ' ?_ h2
      intro r hr
      rcases List.mem_cons.1 hr with rfl | hr
      · exact (hfix v σ').2 h3
      · exact h1 r hr
    have all : ∀ (σ : Assignment) (v : ℚ), (v = 0 ∨ v = 1) → (((∀ r ∈ R, Row.Holds σ r) ∧ ∀ k' ∈ bins, σ k'.1 k'.2 = 0 ∨ σ k'.1 k'.2 = 1) ∧ σ k.1 k.2 = v) →
        (∀ r ∈ R, Row.Holds σ r) ∧ ∀ k' ∈ k :: bins, σ k'.1 k'.2 = 0 ∨ σ k'.1 k'.2 = 1 := by
      rintro σ v hv ⟨⟨a, b⟩, c⟩
      refine ⟨a, fun k' hk' => ?_⟩
      rcases List.mem_cons.1 hk' with rfl | hk'
      · rw [c]; exact hv
      · exact b k' hk'
    by_cases e0 : ∃ τ : Assignment, (∀ r ∈ R, Row.Holds τ r) ∧ (∀ k' ∈ bins, τ k'.1 k'.2 = 0 ∨ τ k'.1 k'.2 = 1) ∧ τ k.1 k.2 = 0
    · obtain ⟨τ, t1, t2, t3⟩ := e0
      obtain ⟨σ, s, hs⟩ := part 0 (.inl rfl) τ t1 t2 t3
      by_cases e1 : ∃ τ : Assignment, (∀ r ∈ R, Row.Holds τ r) ∧ (∀ k' ∈ bins, τ k'.1 k'.2 = 0 ∨ τ k'.1 k'.2 = 1) ∧ τ k.1 k.2 = 1
      · obtain ⟨τ, t1, t2, t3⟩ := e1
        obtain ⟨ρ, r, hr⟩ := part 1 (.inr rfl) τ t1 t2 t3
        rcases le_total (termsVal σ obj) (termsVal ρ obj) with hle | hle
        · refine ⟨σ, all σ 0 (.inl rfl) s, fun σ' h1 h2 => ?_⟩
          have h2' := fun k' hk' => h2 k' (List.mem_cons_of_mem _ hk')
          rcases h2 k List.mem_cons_self with e | e
          · exact hs σ' h1 h2' e
          · exact hle.trans (hr σ' h1 h2' e)
        · refine ⟨ρ, all ρ 1 (.inr rfl) r, fun σ' h1 h2 => ?_⟩
          have h2' := fun k' hk' => h2 k' (List.mem_cons_of_mem _ hk')
          rcases h2 k List.mem_cons_self with e | e
          · exact hle.trans (hs σ' h1 h2' e)
          · exact hr σ' h1 h2' e
      · refine ⟨σ, all σ 0 (.inl rfl) s, fun σ' h1 h2 => ?_⟩
        have h2' := fun k' hk' => h2 k' (List.mem_cons_of_mem _ hk')
        rcases h2 k List.mem_cons_self with e | e
        · exact hs σ' h1 h2' e
        · exact absurd ⟨σ', h1, h2', e⟩ e1
    · have h2' := fun k' hk' => hk k' (List.mem_cons_of_mem _ hk')
      have e : σ₀ k.1 k.2 = 1 := by
        rcases hk k List.mem_cons_self with e | e
        · exact absurd ⟨σ₀, h₀, h2', e⟩ e0
        · exact e
      obtain ⟨ρ, r, hr⟩ := part 1 (.inr rfl) σ₀ h₀ h2' e
      refine ⟨ρ, all ρ 1 (.inr rfl) r, fun σ' h1 h2 => ?_⟩
      have h2' := fun k' hk' => h2 k' (List.mem_cons_of_mem _ hk')
      rcases h2 k List.mem_cons_self with e | e
      · exact absurd ⟨σ', h1, h2', e⟩ e0
      · exact hr σ' h1 h2' e

/-- The rows of one entry of a variable. -/
def domRows (l : String) (i : Nat) : Dom → List Row
  | .fixed x => [⟨.eq, [(1, l, i)], x⟩]
  | .bounds lb ub => lb.toList.map (fun a => ⟨.ineq, [(-1, l, i)], -a⟩) ++ ub.toList.map fun a => ⟨.ineq, [(1, l, i)], a⟩

theorem domRows_iff (σ : Assignment) (l : String) (i : Nat) (d : Dom) : d.Holds (σ l i) ↔ ∀ r ∈ domRows l i d, r.Holds σ := by
  cases d with
  | fixed x => simp [Dom.Holds, domRows, Row.Holds, Kind.rel, termsVal]
  | bounds lb ub =>
    cases lb <;> cases ub <;> simp [Dom.Holds, domRows, Row.Holds, Kind.rel, termsVal]

/-- A variable with a translation is a list of rows and of 0/1 entries. -/
theorem var_linear {x : Var} {ds : List Dom} (h : x.translate = .ok ds) : ∃ (R : List Row) (B : List (String × Nat)),
    (∀ k ∈ B, x.isBinary = true ∧ k.1 = x.label) ∧
    ∀ σ, x.Ok σ ↔ (∀ r ∈ R, Row.Holds σ r) ∧ ∀ k ∈ B, σ k.1 k.2 = 0 ∨ σ k.1 k.2 = 1 := by
  classical
  refine ⟨ds.zipIdx.flatMap fun p => domRows x.label p.2 p.1,
    (ds.zipIdx.filter fun p => x.isBinary = true ∧ ∀ f, p.1 ≠ .fixed f).map fun p => (x.label, p.2), ?_, fun σ => ?_⟩
  · intro k hk
    obtain ⟨p, hp, rfl⟩ := List.mem_map.1 hk
    exact ⟨(of_decide_eq_true (List.mem_filter.1 hp).2).1, rfl⟩
  · constructor
    · rintro ⟨ds', h', hh⟩
      rw [h] at h'
      cases h'
      constructor
      · intro r hr
        obtain ⟨⟨d, i⟩, hp, hr⟩ := List.mem_flatMap.1 hr
        have := List.mem_zipIdx_iff_getElem?.1 hp
        exact (domRows_iff σ x.label i d).1 (hh i d this).1 r hr
      · intro k hk
        obtain ⟨⟨d, i⟩, hp, rfl⟩ := List.mem_map.1 hk
        obtain ⟨hp, hb⟩ := List.mem_filter.1 hp
        have hb := of_decide_eq_true hb
        exact (hh i d (List.mem_zipIdx_iff_getElem?.1 hp)).2 hb.1 hb.2
    · rintro ⟨h1, h2⟩
      refine ⟨ds, h, fun i d hd => ?_⟩
      have hp : (d, i) ∈ ds.zipIdx := List.mem_zipIdx_iff_getElem?.2 hd
      refine ⟨(domRows_iff σ x.label i d).2 fun r hr => h1 r (List.mem_flatMap.2 ⟨_, hp, hr⟩), fun hb hf => ?_⟩
      exact h2 (x.label, i) (List.mem_map.2 ⟨(d, i), List.mem_filter.2 ⟨hp, decide_eq_true ⟨hb, hf⟩⟩, rfl⟩)

/-- A constraint with a translation is a list of rows. -/
theorem con_linear {c : ConReq} {σ₀ : Assignment} (h : c.Ok σ₀) : ∃ R : List Row, ∀ σ, c.Ok σ ↔ ∀ r ∈ R, Row.Holds σ r := by
  obtain ⟨k, rows, hk, hr, _⟩ := h
  refine ⟨rows, fun σ => ⟨?_, fun h => ⟨k, rows, hk, hr, h⟩⟩⟩
  rintro ⟨k', rows', hk', hr', h'⟩
  rw [hk] at hk'
  cases hk'
  rw [hr] at hr'
  cases hr'
  exact h'

theorem vars_linear {σ₀ : Assignment} : ∀ (vs : List Var), (∀ x ∈ vs, x.Ok σ₀) → ∃ (R : List Row) (B : List (String × Nat)),
    (∀ k ∈ B, ∃ x ∈ vs, x.isBinary = true ∧ k.1 = x.label) ∧
    ∀ σ, (∀ x ∈ vs, x.Ok σ) ↔ (∀ r ∈ R, Row.Holds σ r) ∧ ∀ k ∈ B, σ k.1 k.2 = 0 ∨ σ k.1 k.2 = 1
  | [], _ => ⟨[], [], by simp, by simp⟩
  | x :: vs, h => by
    obtain ⟨R, B, hB, hR⟩ := vars_linear vs fun x hx => h x (List.mem_cons_of_mem _ hx)
    obtain ⟨ds, hds, _⟩ := h x List.mem_cons_self
    obtain ⟨R', B', hB', hR'⟩ := var_linear hds
    refine ⟨R' ++ R, B' ++ B, ?_, fun σ => ?_⟩
    · intro k hk
      rcases List.mem_append.1 hk with hk | hk
      · exact ⟨x, List.mem_cons_self, hB' k hk⟩
      · obtain ⟨y, hy, e⟩ := hB k hk
        exact ⟨y, List.mem_cons_of_mem _ hy, e⟩
    · simp only [List.forall_mem_cons, List.forall_mem_append, hR, hR']
      tauto

theorem cons_linear {σ₀ : Assignment} : ∀ (cs : List ConReq), (∀ c ∈ cs, c.Ok σ₀) → ∃ R : List Row, ∀ σ, (∀ c ∈ cs, c.Ok σ) ↔ ∀ r ∈ R, Row.Holds σ r
  | [], _ => ⟨[], by simp⟩
  | c :: cs, h => by
    obtain ⟨R, hR⟩ := cons_linear cs fun x hx => h x (List.mem_cons_of_mem _ hx)
    obtain ⟨R', hR'⟩ := con_linear (h c List.mem_cons_self)
    exact ⟨R' ++ R, fun σ => by simp only [List.forall_mem_cons, List.forall_mem_append, hR, hR']⟩

/-- A solvable model is a list of rows and of 0/1 entries. -/
theorem model_linear {m : SolverModel} {σ₀ : Assignment} (h : m.Solves σ₀) : ∃ (R : List Row) (B : List (String × Nat)),
    (∀ k ∈ B, ∃ x ∈ m.vars, x.isBinary = true ∧ k.1 = x.label) ∧
    ∀ σ, m.Solves σ ↔ (∀ r ∈ R, Row.Holds σ r) ∧ ∀ k ∈ B, σ k.1 k.2 = 0 ∨ σ k.1 k.2 = 1 := by
  obtain ⟨R, B, hB, hR⟩ := vars_linear m.vars h.1
  obtain ⟨R', hR'⟩ := cons_linear m.cons h.2
  refine ⟨R ++ R', B, hB, fun σ => ?_⟩
  unfold SolverModel.Solves
  rw [hR, hR', List.forall_mem_append]
  tauto

/-- The weighted mean of two assignments. -/
def mix (w : ℚ) (σ τ : Assignment) : Assignment := fun l t => w * σ l t + (1 - w) * τ l t

theorem termsVal_mix (w : ℚ) (σ τ : Assignment) : ∀ ts, termsVal (mix w σ τ) ts = w * termsVal σ ts + (1 - w) * termsVal τ ts
  | [] => by simp [termsVal]
  | t :: ts => by
    have ih := termsVal_mix w σ τ ts
    simp only [termsVal, List.map_cons, List.sum_cons, mix] at ih ⊢
    rw [ih]
    ring

theorem row_mix {w : ℚ} (h0 : 0 ≤ w) (h1 : w ≤ 1) {σ τ : Assignment} {r : Row} (hs : r.Holds σ) (ht : r.Holds τ) : r.Holds (mix w σ τ) := by
  unfold Row.Holds at *
  rw [termsVal_mix]
  cases hk : r.kind with
  | eq =>
    rw [hk] at hs ht
    simp only [Kind.rel] at *
    rw [hs, ht]
    ring
  | ineq =>
    rw [hk] at hs ht
    simp only [Kind.rel] at *
    nlinarith

end Flix
