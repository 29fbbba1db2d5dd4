import Verif.Lemmas.SegShares
import Verif.Lemmas.OnOffComplete

/-! # Every admissible investment decision extends to a solution of the investment model -/

namespace Flix

/-- Number of segments of segmented effects. -/
def InvestParams.nrSegments (q : InvestParams) : Nat :=
  match q.effectsInSegments with
  | some (_, (_, l) :: _) => l.length
  | _ => 0

/-- The effects with segmented shares. -/
def InvestParams.segEffects (q : InvestParams) : List String :=
  match q.effectsInSegments with
  | some (_, es) => es.map (·.1)
  | none => []

def sizeL (el : String) : String := el ++ "__" ++ "Investment" ++ "_" ++ "size"
def investedL (el : String) : String := el ++ "__" ++ "Investment" ++ "_" ++ "isInvested"

/-- The labels of the variables of an investment model. -/
def investLabels (el : String) (q : InvestParams) : List String :=
  [sizeL el, investedL el] ++ q.segEffects.map (segShareL el) ++ segLabels el q.nrSegments

/-- The segments of effects allow the size `s` (`d`: decision) with the effect values `val`. -/
def SegmentsAllow (q : InvestParams) (s d : ℚ) (val : String → ℚ) : Prop :=
  ∀ xs es, q.effectsInSegments = some (xs, es) →
    (d = 0 ∧ s = 0 ∧ ∀ e ∈ es, val e.1 = 0) ∨
    (d = 1 ∧ ∃ i < q.nrSegments, ∃ u : ℚ, 0 ≤ u ∧ u ≤ 1 ∧ (∃ a, xs[i]? = some a ∧ s = (1 - u) * a.1 + u * a.2) ∧
      ∀ e ∈ es, ∃ a, e.2[i]? = some a ∧ val e.1 = (1 - u) * a.1 + u * a.2)

theorem mem_segLabels {el l : String} {nr : Nat} : l ∈ segLabels el nr ↔ ∃ i < nr, ∃ k ∈ segNames, l = segL el i k := by
  unfold segLabels
  simp only [List.mem_flatten, List.mem_map, List.mem_range]
  constructor
  · rintro ⟨_, ⟨i, hi, rfl⟩, h⟩
    obtain ⟨k, hk, rfl⟩ := List.mem_map.1 h
    exact ⟨i, hi, k, hk, rfl⟩
  · rintro ⟨i, hi, k, hk, rfl⟩
    exact ⟨_, ⟨i, hi, rfl⟩, List.mem_map.2 ⟨k, hk, rfl⟩⟩

theorem not_segLabels_of {el p y : String} {nr n : Nat} (h1 : n ≤ p.toList.length) (h2 : n ≤ "Segment_".toList.length)
    (h : p.toList.take n ≠ "Segment_".toList.take n) : el ++ "__" ++ (p ++ y) ∉ segLabels el nr := by
  rw [mem_segLabels]
  rintro ⟨i, _, k, _, he⟩
  unfold segL at he
  simp only [String.append_assoc, String.append_right_inj] at he
  exact append_ne_of_take n h1 h2 h he

theorem size_not_seg {el : String} {nr : Nat} : sizeL el ∉ segLabels el nr := by
  have := not_segLabels_of (el := el) (p := "Investment") (y := "_" ++ "size") (nr := nr) (n := 1) (by decide) (by decide) (by decide)
  simpa [sizeL, String.append_assoc] using this

theorem invested_not_seg {el : String} {nr : Nat} : investedL el ∉ segLabels el nr := by
  have := not_segLabels_of (el := el) (p := "Investment") (y := "_" ++ "isInvested") (nr := nr) (n := 1) (by decide) (by decide) (by decide)
  simpa [investedL, String.append_assoc] using this

theorem segShare_not_seg {el e : String} {nr : Nat} : segShareL el e ∉ segLabels el nr := by
  have := not_segLabels_of (el := el) (p := "SegmentedShares") (y := "_" ++ (e ++ "_segmented")) (nr := nr) (n := 8) (by decide) (by decide) (by decide)
  unfold segShareL
  simp only [String.append_assoc] at this ⊢
  exact this

theorem size_ne_invested {el : String} : sizeL el ≠ investedL el := by
  simp [sizeL, investedL, String.append_right_inj]

theorem size_ne_segShare {el e : String} : sizeL el ≠ segShareL el e := by
  unfold sizeL segShareL
  simp only [String.append_assoc, ne_eq, String.append_right_inj]
  exact append_ne_of_take 1 (by decide) (by decide) (by decide)

theorem invested_ne_segShare {el e : String} : investedL el ≠ segShareL el e := by
  unfold investedL segShareL
  simp only [String.append_assoc, ne_eq, String.append_right_inj]
  exact append_ne_of_take 1 (by decide) (by decide) (by decide)

theorem segShareL_inj {el a b : String} (h : segShareL el a = segShareL el b) : a = b := by
  unfold segShareL at h
  rw [String.append_right_inj, append_left_inj'] at h
  exact h

theorem investLabels_prefix {el l : String} {q : InvestParams} (h : l ∈ investLabels el q) :
    ∃ y, l = el ++ "__" ++ ("Investment" ++ y) ∨ l = el ++ "__" ++ ("Segment" ++ y) := by
  simp only [investLabels, List.mem_append, List.mem_cons, List.not_mem_nil, or_false, List.mem_map, mem_segLabels] at h
  rcases h with ((rfl | rfl) | ⟨e, _, rfl⟩) | ⟨i, _, k, _, rfl⟩
  · exact ⟨"_" ++ "size", Or.inl (by simp only [sizeL, String.append_assoc])⟩
  · exact ⟨"_" ++ "isInvested", Or.inl (by simp only [investedL, String.append_assoc])⟩
  · refine ⟨"edShares" ++ ("_" ++ (e ++ "_segmented")), Or.inr ?_⟩
    have : "SegmentedShares" = "Segment" ++ "edShares" := by decide
    simp only [segShareL, this, String.append_assoc]
  · refine ⟨"_" ++ (toString i ++ ("_" ++ k)), Or.inr ?_⟩
    have : "Segment_" = "Segment" ++ "_" := by decide
    simp only [segL, this, String.append_assoc]

/-- The labels of a flow and of its on/off model are not those of its investment. -/
theorem own_not_invest {el k : String} {q : InvestParams} {c : Char} (hk : k.toList.head? = some c) (hc : c ≠ '_') :
    el ++ "_" ++ k ∉ investLabels el q := by
  intro h
  obtain ⟨y, h | h⟩ := investLabels_prefix h <;> exact own_ne_sub hk hc h

theorem oo_not_invest {el k : String} {q : InvestParams} : ooP el ++ "_" ++ k ∉ investLabels el q := by
  intro h
  obtain ⟨y, h | h⟩ := investLabels_prefix h <;>
  · unfold ooP at h
    rw [show "__OnOff" = "__" ++ "OnOff" by decide] at h
    simp only [String.append_assoc, String.append_right_inj] at h
    exact append_ne_of_take 1 (by decide) (by decide) (by decide) h

theorem invest_segments_inv {el : String} {q : InvestParams} {size : Var} {inv : Option Var} {subs : List MTree} {s4 : List ShareCall}
    (h : investSegments el q size inv = .ok (subs, s4)) :
    (q.effectsInSegments = none ∧ subs = [] ∧ s4 = []) ∨
    (∃ xs es o, q.effectsInSegments = some (xs, es) ∧
      segmentedShares el size xs es (match inv with | some x => .use x | none => .no) = .ok o ∧ subs = [o.tree] ∧ s4 = o.shares) := by
  unfold investSegments at h
  cases hq : q.effectsInSegments with
  | none => left; rw [hq] at h; simp at h; exact ⟨rfl, h.1, h.2⟩
  | some p =>
    right
    obtain ⟨xs, es⟩ := p
    rw [hq] at h
    simp only at h
    peel h with o, ho
    simp only [except_pure, Except.ok.injEq, Prod.mk.injEq] at h
    exact ⟨xs, es, o, rfl, ho, h.1.symm, h.2.symm⟩

theorem outsideTotal_opt {el : String} {σ : Assignment} {inv : Option Var} {t : Nat} :
    outsideTotal el σ (match inv with | some x => .use x | none => .no) t = (inv.map fun i => σ i.label t).getD 1 := by
  cases inv <;> rfl

/-- An investment decision whose rows hold extends to a solution; only variables of the investment are changed. -/
theorem invest_complete {cfg : Cfg} {el : String} {q : InvestParams} {x : Var} {relMin relMax : Num} {profile : Option Num}
    {on : Option Var} {o : InvestOut} {N : Nat} (hx : x.length = N)
    (hmin : relMin.Fits N) (hmax : relMax.Fits N) (hprof : ∀ f, profile = some f → f.Fits N)
    (hon : ∀ b, on = some b → b.length = N)
    (h : investModel cfg el q x relMin relMax profile on = .ok o)
    (hdict : q.segEffects.Nodup) (hxl : x.label ∉ investLabels el q) (honl : ∀ b, on = some b → b.label ∉ investLabels el q)
    {s d : ℚ} {val : String → ℚ} (hd : q.optional = false → d = 1) (hseg : SegmentsAllow q s d val) {σ : Assignment}
    (hr : InvestRows cfg q N (σ x.label) (fun _ => s) (o.isInvested.map fun _ _ => d) (on.map fun b => σ b.label) relMin relMax profile) :
    ∃ τ : Assignment, (∀ l ∉ investLabels el q, τ l = σ l) ∧ τ o.size.label 0 = s ∧
      (∀ i, o.isInvested = some i → τ i.label 0 = d) ∧ (∀ e ∈ q.segEffects, τ (segShareL el e) 0 = val e) ∧ o.tree.Solves τ := by
  obtain ⟨hsl, hsz, hopt, hnopt, hiff⟩ := invest_iff hx hmin hmax hprof hon h
  obtain ⟨s1, s2, s3, s4, _, _, _, _, _, _, _, hsegs, _⟩ := invest_inv h
  have hsl' : o.size.label = sizeL el := hsl
  have hil : ∀ i, o.isInvested = some i → i.label = investedL el ∧ i.length = 1 := by
    intro i hi
    cases ho : q.optional with
    | true => obtain ⟨j, hj, h1, h2⟩ := hopt ho; rw [hi] at hj; cases hj; exact ⟨h1, h2⟩
    | false => rw [hnopt ho] at hi; simp at hi
  -- values of size, decision and shares
  let base : List (String × (Nat → ℚ)) :=
    [(sizeL el, fun _ => s), (investedL el, fun _ => d)] ++ q.segEffects.map fun e => (segShareL el e, fun _ => val e)
  have hbl : base.map (·.1) = [sizeL el, investedL el] ++ q.segEffects.map (segShareL el) := by
    simp [base, List.map_map, Function.comp_def]
  have hnd : (base.map (·.1)).Nodup := by
    rw [hbl, List.nodup_append]
    refine ⟨?_, ?_, ?_⟩
    · simp [size_ne_invested]
    · exact List.Nodup.map (fun a b => segShareL_inj) hdict
    · intro a ha b hb
      obtain ⟨e, _, rfl⟩ := List.mem_map.1 hb
      simp only [List.mem_cons, List.not_mem_nil, or_false] at ha
      rcases ha with rfl | rfl
      · exact size_ne_segShare
      · exact invested_ne_segShare
  let σ1 := assignAll σ base
  have e1 : σ1 (sizeL el) = fun _ => s := assignAll_mem hnd (by simp [base])
  have e2 : σ1 (investedL el) = fun _ => d := assignAll_mem hnd (by simp [base])
  have e3 : ∀ e ∈ q.segEffects, σ1 (segShareL el e) = fun _ => val e := by
    intro e he
    exact assignAll_mem hnd (List.mem_append_right _ (List.mem_map.2 ⟨e, he, rfl⟩))
  have e4 : ∀ l ∉ investLabels el q, σ1 l = σ l := by
    intro l hl
    apply assignAll_other
    rw [hbl]
    intro hm
    exact hl (List.mem_append_left _ hm)
  -- the rows for any assignment that agrees with `σ1` off the segments
  have hrows : ∀ τ : Assignment, (∀ l ∉ segLabels el q.nrSegments, τ l = σ1 l) →
      (∀ l ∉ investLabels el q, τ l = σ l) ∧ τ o.size.label 0 = s ∧ (∀ i, o.isInvested = some i → τ i.label 0 = d) ∧
      (∀ e ∈ q.segEffects, τ (segShareL el e) 0 = val e) ∧
      InvestRows cfg q N (τ x.label) (τ o.size.label) (o.isInvested.map fun i => τ i.label) (on.map fun b => τ b.label)
        relMin relMax profile := by
    intro τ hτ
    have f1 : ∀ l ∉ investLabels el q, τ l = σ l := by
      intro l hl
      rw [hτ l (fun hm => hl (List.mem_append_right _ hm)), e4 l hl]
    have f2 : τ o.size.label = fun _ => s := by rw [hsl', hτ _ size_not_seg, e1]
    have f3 : ∀ i, o.isInvested = some i → τ i.label = fun _ => d := by
      intro i hi; rw [(hil i hi).1, hτ _ invested_not_seg, e2]
    refine ⟨f1, by rw [f2], fun i hi => by rw [f3 i hi], fun e he => by rw [hτ _ segShare_not_seg, e3 e he], ?_⟩
    have g1 : τ x.label = σ x.label := f1 _ hxl
    have g2 : (on.map fun b => τ b.label) = on.map fun b => σ b.label := by
      cases on with
      | none => rfl
      | some b => simp only [Option.map_some]; rw [f1 _ (honl b rfl)]
    have g3 : (o.isInvested.map fun i => τ i.label) = o.isInvested.map fun _ _ => d := by
      cases hoi : o.isInvested with
      | none => rfl
      | some i => simp only [Option.map_some]; rw [f3 i hoi]
    rw [g1, g2, g3, f2]
    exact hr
  rcases invest_segments_inv hsegs with ⟨_, hsub, _⟩ | ⟨xs, es, so, hqe, hso, hsub, _⟩
  · obtain ⟨a, b, c, c', e⟩ := hrows σ1 (fun _ _ => rfl)
    refine ⟨σ1, a, b, c, c', (hiff σ1).2 ⟨e, ?_⟩⟩
    rw [hsub]; trivial
  · have hse : q.segEffects = es.map (·.1) := by simp [InvestParams.segEffects, hqe]
    obtain ⟨nr, hnr, ⟨q0, rest, hq0, hnr0⟩, hsiff⟩ := segmentedShares_iff hsz (by
      intro y hy
      cases hoi : o.isInvested with
      | none => rw [hoi] at hy; simp at hy
      | some i => rw [hoi] at hy; simp at hy; subst hy; exact (hil i hoi).2) (by cases o.isInvested <;> simp) hso
    have hnre : nr = q.nrSegments := by
      obtain ⟨hne, _⟩ := segmentedShares_inv hso
      cases es with
      | nil => simp at hne
      | cons a es =>
        simp only [segSharePoints, List.map_cons, List.cons_append, List.cons.injEq] at hq0
        rw [hnr0, ← hq0.1]
        simp [InvestParams.nrSegments, hqe, numSegs]
    subst hnre
    have htot : ∀ τ : Assignment, (∀ i, o.isInvested = some i → τ i.label 0 = d) →
        outsideTotal el τ (match o.isInvested with | some x => .use x | none => .no) 0 = d := by
      intro τ hτ
      rw [outsideTotal_opt]
      cases hoi : o.isInvested with
      | none =>
        have : q.optional = false := by
          by_contra hc
          obtain ⟨i, hi, _⟩ := hopt (by simpa using hc)
          rw [hoi] at hi; simp at hi
        simp [hd this]
      | some i => simp [hτ i hoi]
    have hσ1s : σ1 o.size.label 0 = s := by rw [hsl', e1]
    have hσ1i : ∀ i, o.isInvested = some i → σ1 i.label 0 = d := by
      intro i hi; rw [(hil i hi).1, e2]
    have hσ1e : ∀ e ∈ es, σ1 (segShareVar el e.1).label 0 = val e.1 := by
      intro e he
      have := e3 e.1 (by rw [hse]; exact List.mem_map.2 ⟨e, he, rfl⟩)
      show σ1 (segShareL el e.1) 0 = _
      rw [this]
    have hbet : ∀ (l : List (ℚ × ℚ)) (i : Nat) (a : ℚ × ℚ), l[i]? = some a → (numSegs l)[i]? = some (.s a.1, .s a.2) := by
      intro l i a h; simp [numSegs, h]
    obtain ⟨τ, hτ, hτr⟩ := seg_complete (el := el) (L := 1) (nr := q.nrSegments) (points := segSharePoints el o.size xs es)
      (total := fun _ => d) (σ := σ1) (by
        intro p hp
        simp only [segSharePoints, List.mem_append, List.mem_map, List.mem_cons, List.not_mem_nil, or_false] at hp
        rcases hp with ⟨e, _, rfl⟩ | rfl
        · exact segShare_not_seg
        · show o.size.label ∉ _
          rw [hsl']; exact size_not_seg) (by
        intro t ht
        have ht0 : t = 0 := by omega
        subst ht0
        rcases hseg xs es hqe with ⟨h1, h2, h3⟩ | ⟨h1, i, hi, u, hu0, hu1, ⟨a, ha, hsa⟩, h3⟩
        · left
          refine ⟨h1, ?_⟩
          intro p hp
          simp only [segSharePoints, List.mem_append, List.mem_map, List.mem_cons, List.not_mem_nil, or_false] at hp
          rcases hp with ⟨e, he, rfl⟩ | rfl
          · rw [hσ1e e he, h3 e he]
          · rw [hσ1s, h2]
        · right
          refine ⟨h1, i, hi, u, hu0, hu1, ?_⟩
          intro p hp
          simp only [segSharePoints, List.mem_append, List.mem_map, List.mem_cons, List.not_mem_nil, or_false] at hp
          rcases hp with ⟨e, he, rfl⟩ | rfl
          · obtain ⟨b, hb, hvb⟩ := h3 e he
            refine ⟨_, hbet _ _ _ hb, ?_⟩
            simp only [hσ1e e he, hvb]
            simp [between]
          · refine ⟨_, hbet _ _ _ ha, ?_⟩
            simp only [hσ1s, hsa]
            simp [between])
    obtain ⟨a, b, c, c', e⟩ := hrows τ hτ
    refine ⟨τ, a, b, c, c', (hiff τ).2 ⟨e, ?_⟩⟩
    rw [hsub]
    refine ⟨(hsiff τ).2 ⟨hτr.row, hτr.lam, ?_⟩, trivial⟩
    intro t ht
    have ht0 : t = 0 := by omega
    subst ht0
    rw [hτr.single 0 ht, htot τ c]

end Flix
