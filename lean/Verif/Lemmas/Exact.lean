import Verif.Lemmas.MILP

/-!
# Exact penalties

In a mixed-integer linear model a large enough multiple of a quantity that can be zero and is never negative makes up for what its being zero costs.
-/

namespace Flix

namespace LP

/-- Eliminate all variables but the last one. -/
theorem project₂ : ∀ (n : Nat) (L : List (Form (n + 1))), ∃ M : List (ℚ × ℚ × ℚ), ∀ e z,
    (∃ x, x (Fin.last n) = e ∧ Holds L x z) ↔ ∀ q ∈ M, q.1 * e + q.2.1 * z + q.2.2 ≤ 0
  | 0, L => by
    refine ⟨L.map fun f => (f.coef 0, f.par, f.const), fun e z => ?_⟩
    constructor
    · rintro ⟨x, hx, h⟩ q hq
      obtain ⟨f, hf, rfl⟩ := List.mem_map.1 hq
      have := h f hf
      simp only [Form.val, Fin.sum_univ_succ, Finset.univ_eq_empty, Finset.sum_empty, add_zero] at this
      rw [← hx]
      exact this
    · intro h
      refine ⟨fun _ => e, rfl, fun f hf => ?_⟩
      have := h _ (List.mem_map.2 ⟨f, hf, rfl⟩)
      simpa only [Form.val, Fin.sum_univ_succ, Finset.univ_eq_empty, Finset.sum_empty, add_zero] using this
  | n + 1, L => by
    obtain ⟨M, hM⟩ := project₂ n (elim L)
    refine ⟨M, fun e z => ?_⟩
    rw [← hM e z]
    constructor
    · rintro ⟨x, he, hx⟩
      refine ⟨Fin.tail x, by simpa [Fin.tail] using he, (elim_iff L _ z).2 ⟨x 0, ?_⟩⟩
      rw [Fin.cons_self_tail]
      exact hx
    · rintro ⟨x, he, hx⟩
      obtain ⟨y, hy⟩ := (elim_iff L x z).1 hx
      refine ⟨_, ?_, hy⟩
      rw [← Fin.succ_last, Fin.cons_succ]
      exact he

/-- The least number is where one of the inequalities is tight. -/
theorem tight (M : List (ℚ × ℚ)) {z : ℚ} (h : ∀ q ∈ M, q.1 * z + q.2 ≤ 0) (hmin : ∀ z', (∀ q ∈ M, q.1 * z' + q.2 ≤ 0) → z ≤ z') :
    ∃ q ∈ M, q.1 < 0 ∧ q.1 * z + q.2 = 0 := by
  by_contra hc
  push Not at hc
  -- all inequalities with a negative factor leave room
  have : ∃ d : ℚ, 0 < d ∧ ∀ q ∈ M, q.1 < 0 → q.1 * (z - d) + q.2 ≤ 0 := by
    clear hmin
    induction M with
    | nil => exact ⟨1, one_pos, by simp⟩
    | cons q M ih =>
      obtain ⟨d, hd, hall⟩ := ih (fun q hq => h q (List.mem_cons_of_mem _ hq)) fun q hq => hc q (List.mem_cons_of_mem _ hq)
      by_cases hq : q.1 < 0
      · have h1 : q.1 * z + q.2 < 0 := lt_of_le_of_ne (h q List.mem_cons_self) (hc q List.mem_cons_self hq)
        refine ⟨min d ((q.1 * z + q.2) / q.1), lt_min hd (div_pos_of_neg_of_neg h1 hq), fun p hp hneg => ?_⟩
        rcases List.mem_cons.1 hp with rfl | hp
        · have := min_le_right d ((p.1 * z + p.2) / p.1)
          rw [le_div_iff_of_neg hq] at this
          linarith
        · have h2 := hall p hp hneg
          have h3 := mul_le_mul_of_nonpos_left (min_le_left d ((q.1 * z + q.2) / q.1)) hneg.le
          linarith
      · refine ⟨d, hd, fun p hp hneg => ?_⟩
        rcases List.mem_cons.1 hp with rfl | hp
        · exact absurd hneg hq
        · exact hall p hp hneg
  obtain ⟨d, hd, hall⟩ := this
  have := hmin (z - d) fun q hq => by
    rcases lt_or_ge q.1 0 with e | e
    · exact hall q hq e
    · have := mul_nonneg e hd.le
      linarith [h q hq]
  linarith

/-- A form with a further variable. -/
def Form.more {n : Nat} (f : Form n) (a : ℚ) : Form (n + 1) := ⟨Fin.snoc (α := fun _ => ℚ) f.coef a, f.par, f.const⟩

theorem val_more {n : Nat} (f : Form n) (a : ℚ) (x : Fin (n + 1) → ℚ) (z : ℚ) : (f.more a).val x z = f.val (fun i => x i.castSucc) z + a * x (Fin.last n) := by
  unfold Form.val Form.more
  rw [Fin.sum_univ_castSucc]
  simp only [Fin.snoc_castSucc, Fin.snoc_last]
  ring

/-- In a linear program a multiple of `d` makes up for what `d = 0` costs. -/
theorem exact {n : Nat} (L : List (Form n)) (hpar : ∀ f ∈ L, f.par = 0) (c d : Fin n → ℚ) {x₀ : Fin n → ℚ} (h₀ : Holds L x₀ 0) (hd : ∑ i, d i * x₀ i = 0) {b : ℚ}
    (hb : ∀ x, Holds L x 0 → b ≤ ∑ i, c i * x i) : ∃ P x, Holds L x 0 ∧ ∑ i, d i * x i = 0 ∧ ∀ x', Holds L x' 0 → ∑ i, c i * x i ≤ ∑ i, c i * x' i + P * ∑ i, d i * x' i := by
  let L' : List (Form (n + 1)) := Form.more ⟨c, -1, 0⟩ 0 :: Form.more ⟨fun i => -c i, 1, 0⟩ 0 :: Form.more ⟨d, 0, 0⟩ (-1) :: Form.more ⟨fun i => -d i, 0, 0⟩ 1 :: L.map (Form.more · 0)
  have hval : ∀ x z, Holds L' x z ↔ Holds L (fun i => x i.castSucc) 0 ∧ ∑ i, c i * x (Fin.castSucc i) = z ∧ ∑ i, d i * x (Fin.castSucc i) = x (Fin.last n) := by
    intro x z
    have e3 : ∀ f ∈ L, f.val (fun i => x i.castSucc) z = f.val (fun i => x i.castSucc) 0 := by
      intro f hf
      simp only [Form.val, hpar f hf]
      ring
    unfold Holds
    simp only [L', List.mem_cons, forall_eq_or_imp, List.mem_map, forall_exists_index, and_imp, forall_apply_eq_imp_iff₂, val_more]
    simp only [Form.val, neg_mul, Finset.sum_neg_distrib]
    constructor
    · rintro ⟨a1, a2, a3, a4, h⟩
      refine ⟨fun f hf => ?_, by linarith, by linarith⟩
      have k1 := h f hf
      have k2 := e3 f hf
      simp only [Form.val] at k2
      linarith
    · rintro ⟨h, e1, e2⟩
      refine ⟨by linarith, by linarith, by linarith, by linarith, fun f hf => ?_⟩
      have k1 := h f hf
      have k2 := e3 f hf
      simp only [Form.val] at k2
      linarith
  obtain ⟨M, hM⟩ := project₂ n L'
  have key : ∀ e z, (∃ x, Holds L x 0 ∧ ∑ i, c i * x i = z ∧ ∑ i, d i * x i = e) ↔ ∀ q ∈ M, q.1 * e + q.2.1 * z + q.2.2 ≤ 0 := by
    intro e z
    rw [← hM e z]
    constructor
    · rintro ⟨x, h, e1, e2⟩
      refine ⟨Fin.snoc (α := fun _ => ℚ) x e, by simp, (hval _ _).2 ?_⟩
      simp only [Fin.snoc_castSucc, Fin.snoc_last]
      exact ⟨h, e1, e2⟩
    · rintro ⟨x, he, h⟩
      obtain ⟨h1, h2, h3⟩ := (hval _ _).1 h
      exact ⟨_, h1, h2, by rw [h3, he]⟩
  let M0 : List (ℚ × ℚ) := M.map (·.2)
  have hM0 : ∀ z, (∀ q ∈ M0, q.1 * z + q.2 ≤ 0) ↔ ∃ x, Holds L x 0 ∧ ∑ i, c i * x i = z ∧ ∑ i, d i * x i = 0 := by
    intro z
    rw [key 0 z]
    simp only [M0, List.forall_mem_map, mul_zero, zero_add]
  obtain ⟨z, hz, hmin⟩ := least M0 ((hM0 _).2 ⟨x₀, h₀, rfl, hd⟩) (b := b) fun z hz => by
    obtain ⟨x, h1, h2, _⟩ := (hM0 z).1 hz
    rw [← h2]
    exact hb x h1
  obtain ⟨q0, hq0, hneg, ht⟩ := tight M0 hz hmin
  obtain ⟨q, hq, rfl⟩ := List.mem_map.1 hq0
  obtain ⟨x, h1, h2, h3⟩ := (hM0 z).1 hz
  refine ⟨q.1 / q.2.1, x, h1, h3, fun x' hx' => ?_⟩
  have := (key _ _).1 ⟨x', hx', rfl, rfl⟩ q hq
  rw [h2]
  have hne : q.2.1 ≠ 0 := hneg.ne
  have e : q.2.1 * (q.1 / q.2.1 * ∑ i, d i * x' i) = q.1 * ∑ i, d i * x' i := by field_simp
  by_contra hlt
  push Not at hlt
  have := mul_lt_mul_of_neg_left hlt hneg
  rw [mul_add, e] at this
  linarith

end LP

/-- The same for rows. -/
theorem lp_exact (R : List Row) (f g : List (ℚ × String × Nat)) {σ₀ : Assignment} (h₀ : ∀ r ∈ R, r.Holds σ₀) (hg : termsVal σ₀ g = 0) {b : ℚ}
    (hb : ∀ σ, (∀ r ∈ R, Row.Holds σ r) → b ≤ termsVal σ f) :
    ∃ P σ, (∀ r ∈ R, Row.Holds σ r) ∧ termsVal σ g = 0 ∧ ∀ σ', (∀ r ∈ R, Row.Holds σ' r) → termsVal σ f ≤ termsVal σ' f + P * termsVal σ' g := by
  let K : List (String × Nat) := ((f ++ g ++ R.flatMap (·.terms)).map (·.2)).dedup
  have hK : K.Nodup := List.nodup_dedup _
  have hf : ∀ t ∈ f, t.2 ∈ K := fun t ht => List.mem_dedup.2 (List.mem_map_of_mem (List.mem_append_left _ (List.mem_append_left _ ht)))
  have hg' : ∀ t ∈ g, t.2 ∈ K := fun t ht => List.mem_dedup.2 (List.mem_map_of_mem (List.mem_append_left _ (List.mem_append_right _ ht)))
  have hR : ∀ r ∈ R, ∀ t ∈ r.terms, t.2 ∈ K := fun r hr t ht =>
    List.mem_dedup.2 (List.mem_map_of_mem (List.mem_append_right _ (List.mem_flatMap.2 ⟨r, hr, ht⟩)))
  let L := R.flatMap (rowForms K)
  have hiff : ∀ (σ : Assignment) x, (∀ i, σ (K.get i).1 (K.get i).2 = x i) → ((∀ r ∈ R, Row.Holds σ r) ↔ LP.Holds L x 0) := by
    intro σ x hx
    constructor
    · intro h f hf
      obtain ⟨r, hr, hf⟩ := List.mem_flatMap.1 hf
      exact (rowForms_iff hK (hR r hr) hx).1 (h r hr) f hf
    · intro h r hr
      exact (rowForms_iff hK (hR r hr) hx).2 fun f hf => h f (List.mem_flatMap.2 ⟨r, hr, hf⟩)
  have hpar : ∀ f ∈ L, f.par = 0 := by
    intro f hf
    obtain ⟨r, _, hf⟩ := List.mem_flatMap.1 hf
    unfold rowForms at hf
    split at hf <;> simp only [List.mem_cons, List.not_mem_nil, or_false] at hf
    · subst hf; rfl
    · rcases hf with rfl | rfl <;> rfl
  obtain ⟨P, x, hx, hx0, hmin⟩ := LP.exact L hpar (coefOf K f) (coefOf K g) (x₀ := fun i => σ₀ (K.get i).1 (K.get i).2) ((hiff σ₀ _ fun _ => rfl).1 h₀)
    (by rw [← termsVal_coef hK _ g hg']; exact hg) (b := b) (by
    intro x hx
    have := hb (ofVec K x) ((hiff _ x (ofVec_get hK x)).2 hx)
    rw [termsVal_coef hK _ f hf] at this
    simpa only [ofVec_get hK] using this)
  refine ⟨P, ofVec K x, (hiff _ x (ofVec_get hK x)).2 hx, ?_, fun σ' h' => ?_⟩
  · rw [termsVal_coef hK _ g hg']
    simpa only [ofVec_get hK] using hx0
  · rw [termsVal_coef hK _ f hf, termsVal_coef hK _ f hf, termsVal_coef hK _ g hg']
    simp only [ofVec_get hK]
    exact hmin _ ((hiff σ' _ fun _ => rfl).1 h')

/-- With some entries restricted to 0 and 1: what is not undercut where `g` is zero is not undercut anywhere once `g` is paid enough for. -/
theorem milp_exact (f g : List (ℚ × String × Nat)) {b c₀ : ℚ} : ∀ (bins : List (String × Nat)) (R : List Row),
    (∀ σ, (∀ r ∈ R, Row.Holds σ r) → (∀ k ∈ bins, σ k.1 k.2 = 0 ∨ σ k.1 k.2 = 1) → b ≤ termsVal σ f ∧ 0 ≤ termsVal σ g) →
    (∀ σ, (∀ r ∈ R, Row.Holds σ r) → (∀ k ∈ bins, σ k.1 k.2 = 0 ∨ σ k.1 k.2 = 1) → termsVal σ g = 0 → c₀ ≤ termsVal σ f) →
    ∃ P, 0 ≤ P ∧ ∀ σ, (∀ r ∈ R, Row.Holds σ r) → (∀ k ∈ bins, σ k.1 k.2 = 0 ∨ σ k.1 k.2 = 1) → c₀ ≤ termsVal σ f + P * termsVal σ g
  | [], R, hb, hc => by
    have hb := fun σ h => hb σ h (by simp)
    by_cases e : ∃ σ₀ : Assignment, ∀ r ∈ R, r.Holds σ₀
    · obtain ⟨σ₀, h₀⟩ := e
      by_cases e0 : ∃ σ₀ : Assignment, (∀ r ∈ R, r.Holds σ₀) ∧ termsVal σ₀ g = 0
      · obtain ⟨σ₀, h₀, hg⟩ := e0
        obtain ⟨P, σ, h1, h2, h3⟩ := lp_exact R f g h₀ hg (b := b) fun σ h => (hb σ h).1
        refine ⟨max P 0, le_max_right _ _, fun τ ht _ => ?_⟩
        have k1 := hc σ h1 (by simp) h2
        have k2 := h3 τ ht
        have k3 := mul_le_mul_of_nonneg_right (le_max_left P 0) (hb τ ht).2
        linarith
      · obtain ⟨σ, h1, h2⟩ := lp_attained R g h₀ (b := 0) fun σ h => (hb σ h).2
        have hpos : 0 < termsVal σ g := lt_of_le_of_ne (hb σ h1).2 fun hh => e0 ⟨σ, h1, hh.symm⟩
        refine ⟨max ((c₀ - b) / termsVal σ g) 0, le_max_right _ _, fun τ ht _ => ?_⟩
        have k1 := (hb τ ht).1
        have k2 := mul_le_mul_of_nonneg_left (h2 τ ht) (le_max_right ((c₀ - b) / termsVal σ g) 0)
        have k3 := mul_le_mul_of_nonneg_right (le_max_left ((c₀ - b) / termsVal σ g) 0) hpos.le
        rw [div_mul_cancel₀ _ hpos.ne'] at k3
        linarith
    · exact ⟨0, le_rfl, fun σ h => absurd ⟨σ, h⟩ e⟩
  | k :: bins, R, hb, hc => by
    let fix : ℚ → Row := fun v => ⟨.eq, [(1, k)], v⟩
    have hfix : ∀ v (σ : Assignment), Row.Holds σ (fix v) ↔ σ k.1 k.2 = v := by
      intro v σ
      simp [fix, Row.Holds, Kind.rel, termsVal]
    have both : ∀ v : ℚ, (v = 0 ∨ v = 1) → ∀ σ : Assignment, (∀ r ∈ fix v :: R, Row.Holds σ r) → (∀ k' ∈ bins, σ k'.1 k'.2 = 0 ∨ σ k'.1 k'.2 = 1) →
        (∀ r ∈ R, Row.Holds σ r) ∧ ∀ k' ∈ k :: bins, σ k'.1 k'.2 = 0 ∨ σ k'.1 k'.2 = 1 := by
      intro v hv σ h1 h2
      refine ⟨fun r hr => h1 r (List.mem_cons_of_mem _ hr), fun k' hk' => ?_⟩
      rcases List.mem_cons.1 hk' with rfl | hk'
      · rw [(hfix v σ).1 (h1 _ List.mem_cons_self)]; exact hv
      · exact h2 k' hk'
    have part : ∀ v : ℚ, (v = 0 ∨ v = 1) → ∃ P, 0 ≤ P ∧ ∀ σ : Assignment, (∀ r ∈ R, Row.Holds σ r) → (∀ k' ∈ bins, σ k'.1 k'.2 = 0 ∨ σ k'.1 k'.2 = 1) → σ k.1 k.2 = v →
        c₀ ≤ termsVal σ f + P * termsVal σ g := by
      intro v hv
      obtain ⟨P, hP, hall⟩ := milp_exact f g bins (fix v :: R) (fun σ h1 h2 => hb σ (both v hv σ h1 h2).1 (both v hv σ h1 h2).2)
        fun σ h1 h2 h3 => hc σ (both v hv σ h1 h2).1 (both v hv σ h1 h2).2 h3
      refine ⟨P, hP, fun σ h1 h2 h3 => hall σ ?_ h2⟩
      intro r hr
      rcases List.mem_cons.1 hr with rfl | hr
      · exact (hfix v σ).2 h3
      · exact h1 r hr
    obtain ⟨P, hP, h0⟩ := part 0 (.inl rfl)
    obtain ⟨Q, _, h1⟩ := part 1 (.inr rfl)
    refine ⟨max P Q, hP.trans (le_max_left _ _), fun σ hr hk => ?_⟩
    have hg := (hb σ hr hk).2
    have hk' := fun k' hk' => hk k' (List.mem_cons_of_mem _ hk')
    rcases hk k List.mem_cons_self with e | e
    · have := mul_le_mul_of_nonneg_right (le_max_left P Q) hg
      linarith [h0 σ hr hk' e]
    · have := mul_le_mul_of_nonneg_right (le_max_right P Q) hg
      linarith [h1 σ hr hk' e]

end Flix
