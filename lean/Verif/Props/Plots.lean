import Verif.Model.Plots
import Verif.Props.Frames
import Verif.Props.Storage

/-!
# C90: plots of the operation
-/

namespace Flix

variable {sys : Sys} {s : System} {o : SysOut} {σ : Assignment}

/-! ## What every table is like -/

/-- Names once, columns of one length. -/
def Shape (cols : List (String × List ℚ)) : Prop := (cols.map (·.1)).Nodup ∧ ∃ m, ∀ q ∈ cols, q.2.length = m

theorem dataFrame_shape {kvs : List (String × RTree)} {df : List (String × List ℚ)} (hk : (kvs.map (·.1)).Nodup) (h : dataFrame kvs = .ok df) : Shape df := by
  unfold dataFrame at h
  split at h
  · split at h
    · cases h
      exact ⟨by simp, 0, by simp⟩
    · cases h
  · rename_i ys _
    have hf := mapM_ok.1 h
    have hq : List.Forall₂ (fun (a : String × RTree) (b : String × List ℚ) => b.1 = a.1 ∧ b.2.length = ys.length) kvs df := by
      refine forall₂_imp' hf fun a _ b hab => ?_
      obtain ⟨k, v⟩ := a
      cases v with
      | arr xs =>
        simp only at hab
        split at hab
        · cases hab
          rename_i e
          exact ⟨rfl, e⟩
        · cases hab
      | scal x => cases hab; exact ⟨rfl, by simp⟩
      | nul => cases hab
      | dict _ => cases hab
    refine ⟨?_, ys.length, fun q hq' => ?_⟩
    · have : df.map (·.1) = kvs.map (·.1) := by
        clear h hf hk
        rename_i hfs
        clear hfs
        induction hq with
        | nil => rfl
        | cons hab _ ih => simp [hab.1, ih]
      rwa [this]
    · obtain ⟨a, _, hab⟩ := forall₂_mem_right hq hq'
      exact hab.2

theorem elementTable_shape {cfg : Cfg} {n : Nat} {flows : List (String × FlowRes)} {l : String} {inF outF : Option ℚ} {df : List (String × List ℚ)}
    (h : elementTable cfg σ n s flows l inF outF = .ok df) : Shape df := by
  unfold elementTable at h
  split at h
  · cases h
  · unfold compTable at h
    peel h with fs, _
    peel h with ins, _
    peel h with outs, _
    exact dataFrame_shape (pyUpdate_nodup (pyUpdate_nodup (by simp) _) _) h
  · unfold busTable at h
    peel h with fs, _
    peel h with ins, hi
    peel h with outs, _
    refine dataFrame_shape (pyUpdate_nodup ?_ _) h
    cases inF with
    | none => cases hi; simp
    | some k =>
      simp only [Option.elim] at hi
      peel hi with cs, _
      peel hi with e, _
      cases hi
      exact pyUpdate_nodup (by simp) _
  · unfold flowTable at h
    peel h with d, _
    peel h with v, _
    exact dataFrame_shape (by simp) h
  · cases h

theorem repeatLast_shape {cols : List (String × List ℚ)} (h : Shape cols) : Shape (repeatLast cols) := by
  obtain ⟨h1, m, h2⟩ := h
  refine ⟨by simpa [repeatLast, Function.comp_def] using h1, m + if m = 0 then 0 else 1, fun q hq => ?_⟩
  obtain ⟨p, hp, rfl⟩ := List.mem_map.1 hq
  have := h2 p hp
  cases hpp : p.2 with
  | nil => simp [hpp] at this; simp [← this]
  | cons a l =>
    rw [hpp] at this
    rw [if_neg (by simp at this; omega), List.length_append, this, List.getLast?_eq_getLast_of_ne_nil (by simp)]
    simp

/-- Whatever table is made, its columns have different names and one length, and above a threshold every one exceeds it. -/
theorem toDataframe_shape {cfg : Cfg} {n : Nat} {times : List Int} {l : String} {inF outF thr : Option ℚ} {w : Bool} {fr : Frame}
    (h : toDataframe cfg σ n times s l inF outF thr w = .ok fr) : Shape fr.cols ∧ ∀ x, thr = some x → ∀ q ∈ fr.cols, ∃ y ∈ q.2, x < |y| := by
  unfold toDataframe at h
  peel h with flows, _
  peel h with df, hd
  have hs := elementTable_shape hd
  have key : ∀ cols : List (String × List ℚ), Shape cols → (∀ x, thr = some x → ∀ q ∈ cols, ∃ y ∈ q.2, x < |y|) → frameOf times w cols = .ok fr →
      Shape fr.cols ∧ ∀ x, thr = some x → ∀ q ∈ fr.cols, ∃ y ∈ q.2, x < |y| := by
    intro cols c1 c2 hf
    have hr : ∀ x, thr = some x → ∀ q ∈ repeatLast cols, ∃ y ∈ q.2, x < |y| := by
      intro x hx q hq
      obtain ⟨p, hp, rfl⟩ := List.mem_map.1 hq
      obtain ⟨y, h1, h2⟩ := c2 x hx p hp
      exact ⟨y, List.mem_append_left _ h1, h2⟩
    have set : ∀ (cs : List (String × List ℚ)) (ts : List Int), setIndex cs ts = .ok fr → fr.cols = cs := by
      intro cs ts e
      unfold setIndex at e
      split at e
      · cases e; rfl
      · cases e
    unfold frameOf at hf
    split at hf
    · cases hf; exact ⟨c1, c2⟩
    · split at hf
      · split at hf
        · rw [set _ _ hf]; exact ⟨repeatLast_shape c1, hr⟩
        · rw [set _ _ hf]; exact ⟨c1, c2⟩
      · split at hf
        · rw [set _ _ hf]; exact ⟨c1, c2⟩
        · rw [set _ _ hf]; exact ⟨c1, c2⟩
  cases thr with
  | none => exact key df hs (nofun) h
  | some x =>
    refine key _ ⟨List.Nodup.sublist (List.filter_sublist.map _) hs.1, hs.2.imp fun m hm q hq => hm q (List.mem_of_mem_filter hq)⟩ ?_ h
    intro y hy q hq
    cases hy
    have := (List.mem_filter.1 hq).2
    simp only [List.any_eq_true, Bool.or_eq_true, decide_eq_true_eq] at this
    obtain ⟨z, hz, h1⟩ := this
    exact ⟨z, hz, by rw [lt_abs]; exact h1.imp id (by intro h; linarith)⟩

/-! ## Plotly -/

/-- How a series is to be drawn: rounded values tell whether it can be stacked upwards or downwards. -/
def lookOf : PlotMode → List ℚ → Look
  | .bar, _ => .bar
  | .area, ys => if ∀ y ∈ ys, 0 ≤ y then .up else if ∀ y ∈ ys, y ≤ 0 then .down else .dashed
  | _, _ => .line

/-- What is drawn of a series: areas show values below `1e-5` as zero. -/
def drawnValues : PlotMode → List ℚ → List ℚ
  | .area, ys => ys.map fun y => if |y| < 1 / 100000 then 0 else y
  | _, ys => ys

/-- Colours that fit to a number of columns: any named scale, or a list of that length. -/
def PlotColors.Fits (k : Nat) : PlotColors → Prop
  | .scale _ => True
  | .given cs => cs.length = k

theorem plotly_length {k : Nat} (hk : k ≠ 0) (c : PlotColors) : (c.plotly k).length = k ↔ c.Fits k := by
  cases c with
  | given cs => rfl
  | scale sc =>
    simp only [PlotColors.plotly, PlotColors.Fits, iff_true]
    split
    · simp
    · simp; omega

theorem matplotlib_length {k : Nat} (c : PlotColors) : (c.matplotlib k).length = k ↔ c.Fits k := by
  cases c <;> simp [PlotColors.matplotlib, PlotColors.Fits]

theorem flush_eq (ys : List ℚ) : flush ys = drawnValues .area ys := by
  simp only [flush, drawnValues, abs_lt]

/-- Three classes, each element in exactly one. -/
theorem three_perm {α} (p q r : α → Bool) (l : List α) (h1 : ∀ x ∈ l, p x = true → q x = false) (h2 : ∀ x ∈ l, r x = (!p x && !q x)) :
    (l.filter p ++ l.filter q ++ l.filter r).Perm l := by
  have e1 : l.filter q = (l.filter fun x => !p x).filter q := by
    rw [List.filter_filter]
    refine List.filter_congr fun x hx => ?_
    have := h1 x hx
    cases hp : p x <;> cases hq : q x <;> simp_all
  have e2 : l.filter r = (l.filter fun x => !p x).filter fun x => !q x := by
    rw [List.filter_filter]
    refine List.filter_congr fun x hx => ?_
    rw [h2 x hx]
    cases p x <;> cases q x <;> rfl
  rw [e1, e2, List.append_assoc]
  exact ((List.filter_append_perm q _).append_left _).trans (List.filter_append_perm p l)

theorem mem_names {z : List ((String × List ℚ) × String)} (hn : (z.map (·.1.1)).Nodup) (P : (String × List ℚ) × String → Bool) {p : (String × List ℚ) × String}
    (hp : p ∈ z) : p.1.1 ∈ (z.filter P).map (·.1.1) ↔ P p = true := by
  constructor
  · intro h
    obtain ⟨r, hr, e⟩ := List.mem_map.1 h
    have := List.inj_on_of_nodup_map hn (List.mem_of_mem_filter hr) hp e
    rw [← this]
    exact (List.mem_filter.1 hr).2
  · exact fun h => List.mem_map.2 ⟨p, List.mem_filter.2 ⟨hp, h⟩, rfl⟩

theorem area_perm {cols : List (String × List ℚ)} {cs : List String} (hn : (cols.map (·.1)).Nodup) (hl : cs.length = cols.length)
    (h0 : ∀ q ∈ cols, ∃ y ∈ q.2, 1 / 100000 < |y|) :
    (areaTraces cols cs).Perm ((cols.zip cs).map fun q => .trace q.1.1 (drawnValues .area q.1.2) q.2 (lookOf .area (drawnValues .area q.1.2))) := by
  have hz : cols = (cols.zip cs).map (·.1) := (List.map_fst_zip (by omega)).symm
  have hzc : (cols.map (·.1)).zip cs = (cols.zip cs).map fun p => (p.1.1, p.2) := by
    rw [List.zip_map_left]; rfl
  generalize hzz : cols.zip cs = z at hz hzc
  have hnz : (z.map (·.1.1)).Nodup := by rw [hz] at hn; simpa [Function.comp_def] using hn
  set P : (String × List ℚ) × String → Bool := fun p => (flush p.1.2).all fun x => decide (0 ≤ x) with hP
  set N : (String × List ℚ) × String → Bool := fun p => (flush p.1.2).all fun x => decide (x ≤ 0) with hN
  have hPN : ∀ p ∈ z, P p = true → N p = false := by
    intro p hp h1
    rw [Bool.eq_false_iff]
    intro h2
    obtain ⟨y, hy, hy1⟩ := h0 p.1 (by rw [hz]; exact List.mem_map.2 ⟨p, hp, rfl⟩)
    simp only [hP, hN, List.all_eq_true, decide_eq_true_eq] at h1 h2
    have hm : y ∈ flush p.1.2 := by
      rw [flush_eq]
      exact List.mem_map.2 ⟨y, hy, by rw [if_neg (by linarith)]⟩
    have : y = 0 := le_antisymm (h2 y hm) (h1 y hm)
    rw [this] at hy1
    norm_num at hy1
  have hT : ∀ p ∈ z, ∀ look, Mark.trace p.1.1 ((pyLookup (z.map fun p => (p.1.1, flush p.1.2)) p.1.1).getD [])
      ((pyLookup (pyUpdate [] (z.map fun p => (p.1.1, p.2))) p.1.1).getD "") look = .trace p.1.1 (drawnValues .area p.1.2) p.2 look := by
    intro p hp look
    rw [pyLookup_of_mem (v := flush p.1.2) (by simpa [Function.comp_def] using hnz) (List.mem_map.2 ⟨p, hp, rfl⟩),
      pyUpdate_new (by simpa [Function.comp_def] using hnz), List.nil_append,
      pyLookup_of_mem (v := p.2) (by simpa [Function.comp_def] using hnz) (List.mem_map.2 ⟨p, hp, rfl⟩), flush_eq]
    rfl
  have hpos : ((z.map fun p => (p.1.1, flush p.1.2)).filter fun q => q.2.all fun x => decide (0 ≤ x)).map (·.1) = (z.filter P).map (·.1.1) := by
    simp [List.filter_map, Function.comp_def, hP]
  have hneg : ((z.map fun p => (p.1.1, flush p.1.2)).filter fun q => q.2.all fun x => decide (x ≤ 0)).map (·.1) = (z.filter N).map (·.1.1) := by
    simp [List.filter_map, Function.comp_def, hN]
  have hnames : (z.map fun p => (p.1.1, flush p.1.2)).map (·.1) = z.map (·.1.1) := by simp [Function.comp_def]
  have hdata : (cols.map fun q => (q.1, flush q.2)) = z.map fun p => (p.1.1, flush p.1.2) := by rw [hz]; simp [Function.comp_def]
  have hzip : (z.map (·.1.1)).zip cs = z.map fun p => (p.1.1, p.2) := by rw [← hzc, hz]; simp [Function.comp_def]
  have hmix : (z.map (·.1.1)).filter (fun c => decide (c ∉ (z.filter P).map (·.1.1) ++ (z.filter N).map (·.1.1))) =
      (z.filter fun p => !P p && !N p).map (·.1.1) := by
    rw [List.filter_map]
    congr 1
    refine List.filter_congr fun p hp => ?_
    simp only [Function.comp, List.mem_append, mem_names hnz P hp, mem_names hnz N hp]
    cases P p <;> cases N p <;> rfl
  unfold areaTraces
  simp only [hdata, hnames, hzip]
  simp only [hpos, hneg]
  rw [hmix, List.map_append, List.map_map, List.map_map, List.map_map]
  refine List.Perm.trans (List.Perm.of_eq ?_) ((three_perm P N (fun p => !P p && !N p) z hPN fun _ _ => rfl).map _)
  rw [List.map_append, List.map_append]
  have hP' : ∀ p, P p = true ↔ ∀ y ∈ drawnValues .area p.1.2, 0 ≤ y := fun p => by
    simp only [hP, List.all_eq_true, decide_eq_true_eq, flush_eq]
  have hN' : ∀ p, N p = true ↔ ∀ y ∈ drawnValues .area p.1.2, y ≤ 0 := fun p => by
    simp only [hN, List.all_eq_true, decide_eq_true_eq, flush_eq]
  congr 1
  · congr 1
    · refine List.map_congr_left fun p hp => ?_
      obtain ⟨hp, h1⟩ := List.mem_filter.1 hp
      simp only [Function.comp]
      rw [hT p hp, if_pos ((mem_names hnz P hp).2 h1), lookOf, if_pos ((hP' p).1 h1)]
    · refine List.map_congr_left fun p hp => ?_
      obtain ⟨hp, h1⟩ := List.mem_filter.1 hp
      have h2 : ¬ P p = true := fun h => by rw [hPN p hp h] at h1; cases h1
      simp only [Function.comp]
      rw [hT p hp, if_neg (mt (mem_names hnz P hp).1 h2), lookOf, if_neg (mt (hP' p).2 h2), if_pos ((hN' p).1 h1)]
  · refine List.map_congr_left fun p hp => ?_
    obtain ⟨hp, h1⟩ := List.mem_filter.1 hp
    simp only [Bool.and_eq_true, Bool.not_eq_true', ← Bool.not_eq_true] at h1
    simp only [Function.comp]
    rw [hT p hp, lookOf, if_neg (mt (hP' p).2 h1.1), if_neg (mt (hN' p).2 h1.2)]

/-- **C90, plotly.**  A plot made with plotly shows every column of the table of the element exactly once: under its name, with its values (areas
show values below `1e-5` as zero), with the colour of its position, stacked upwards or downwards only if it never is of the other sign.  Lists of
colours have to be as long as there are columns. -/
theorem C90_plotly {cfg : Cfg} {n : Nat} {times : List Int} {l : String} {invert : Bool} {mode : PlotMode} {fr : Frame} (colors : PlotColors)
    (h : toDataframe cfg σ n times s l (some (if invert then 1 else -1)) (some (if invert then -1 else 1)) (some (1 / 100000)) true = .ok fr) (hm : mode ≠ .other) :
    (fr.cols = [] → plotOperation cfg σ n times s l mode colors .plotly invert = .ok { x := fr.index, marks := [] }) ∧
    (fr.cols ≠ [] → ¬ colors.Fits fr.cols.length → plotOperation cfg σ n times s l mode colors .plotly invert = .error .assertion) ∧
    (fr.cols ≠ [] → colors.Fits fr.cols.length → ∃ fig, plotOperation cfg σ n times s l mode colors .plotly invert = .ok fig ∧ fig.x = fr.index ∧ fig.extra = [] ∧
      fig.marks.Perm ((fr.cols.zip (colors.plotly fr.cols.length)).map fun q =>
        .trace q.1.1 (drawnValues mode q.1.2) q.2 (lookOf mode (drawnValues mode q.1.2)))) := by
  have h' : toDataframe cfg σ n times s l (some (if !invert then -1 else 1)) (some (if !invert then 1 else -1)) (some (1 / 100000)) true = .ok fr := by
    cases invert <;> exact h
  obtain ⟨⟨h1, m, h2⟩, h3⟩ := toDataframe_shape h
  have hrows : fr.cols ≠ [] → ¬ (fr.cols = [] ∨ frameRows fr.cols = 0) := by
    intro hne hr
    rcases hr with hr | hr
    · exact hne hr
    · obtain ⟨q, qs, e⟩ := List.exists_cons_of_ne_nil hne
      rw [e] at hr
      obtain ⟨y, hy, _⟩ := h3 _ rfl q (by rw [e]; exact List.mem_cons_self)
      rw [List.length_eq_zero_iff.1 (hr : q.2.length = 0)] at hy
      cases hy
  unfold plotOperation
  rw [h', ok_bind]
  simp only [withPlotly, if_neg hm]
  refine ⟨fun h0 => by rw [if_pos (Or.inl h0)]; rfl, fun h0 hc => ?_, fun h0 hc => ?_⟩
  · rw [if_neg (hrows h0), if_pos (mt (plotly_length (by simpa using h0) colors).1 hc)]
    rfl
  · have hlen := (plotly_length (by simpa using h0) colors).2 hc
    rw [if_neg (hrows h0), if_neg (not_not.2 hlen)]
    cases mode with
    | bar => exact ⟨_, rfl, rfl, rfl, List.Perm.refl _⟩
    | line => exact ⟨_, rfl, rfl, rfl, List.Perm.refl _⟩
    | area => exact ⟨_, rfl, rfl, rfl, area_perm h1 hlen fun q hq => h3 _ rfl q hq⟩
    | other => exact absurd rfl hm

/-- **C90, colours.**  A named colour scale gives different columns colours of different positions, the first that of 0 and the last that of 1. -/
theorem C90_colours (sc : ColorScale) {k : Nat} (hk : 1 < k) : ∃ ps : List ℚ, (PlotColors.scale sc).plotly k = ps.map sc.at_ ∧ ps.length = k ∧ ps.Nodup ∧
    ps.head? = some 0 ∧ ps.getLast? = some 1 ∧ ∀ p ∈ ps, 0 ≤ p ∧ p ≤ 1 := by
  have hk1 : (0 : ℚ) < (k : ℚ) - 1 := by
    have : (1 : ℚ) < k := by exact_mod_cast hk
    linarith
  refine ⟨(List.range k).map fun (i : Nat) => (i : ℚ) / ((k : ℚ) - 1), by simp [PlotColors.plotly, hk], by simp, ?_, ?_, ?_, ?_⟩
  · refine List.Nodup.map ?_ List.nodup_range
    intro a b hab
    have := (div_left_inj' hk1.ne').1 hab
    exact_mod_cast this
  · obtain ⟨j, rfl⟩ : ∃ j, k = j + 1 := ⟨k - 1, by omega⟩
    simp [List.range_succ_eq_map]
  · obtain ⟨j, rfl⟩ : ∃ j, k = j + 1 := ⟨k - 1, by omega⟩
    have : ((j : ℚ)) ≠ 0 := by
      have : j ≠ 0 := by omega
      exact_mod_cast this
    simp [List.range_succ, this]
  · intro p hp
    obtain ⟨i, hi, rfl⟩ := List.mem_map.1 hp
    have hi' : (i : ℚ) + 1 ≤ k := by exact_mod_cast List.mem_range.1 hi
    constructor
    · exact div_nonneg (by positivity) hk1.le
    · rw [div_le_one hk1]; linarith

/-- **C90, colours of matplotlib.**  Column `i` of `k` has colour `i` of a scale of `k` colours; given colours are used as they are, by both engines. -/
theorem C90_colours_matplotlib (k : Nat) : (∀ (sc : ColorScale), ((PlotColors.scale sc).matplotlib k).length = k ∧
      ∀ i < k, ((PlotColors.scale sc).matplotlib k)[i]? = some (sc.nth k i)) ∧
    ∀ cs, (PlotColors.given cs).matplotlib k = cs ∧ (PlotColors.given cs).plotly k = cs := by
  refine ⟨fun sc => ⟨by simp [PlotColors.matplotlib], fun i hi => ?_⟩, fun cs => ⟨rfl, rfl⟩⟩
  simp [PlotColors.matplotlib, hi]

example : (PlotColors.scale ⟨fun _ => "", fun k i => toString k ++ toString i⟩).matplotlib 3 = ["30", "31", "32"] := by decide +kernel

/-! ## Matplotlib -/

theorem stackBars_length (z : List ((String × List ℚ) × String)) (up down : List ℚ) : (stackBars z up down).length = 2 * z.length := by
  induction z generalizing up down with
  | nil => rfl
  | cons q z ih => simp [stackBars, ih]; omega

theorem zipWith_stack {m : Nat} {U : Nat → ℚ} {xs : List ℚ} (hx : xs.length = m) (f : ℚ → ℚ) :
    ((List.range m).map U).zipWith (· + ·) (xs.map f) = (List.range m).map fun t => U t + f (xs.getD t 0) := by
  refine List.ext_getElem (by simp [hx]) fun i h1 h2 => ?_
  have : i < xs.length := by simp at h2; omega
  simp [List.getD_eq_getElem?_getD, this]

theorem stackBars_get {m : Nat} (z : List ((String × List ℚ) × String)) (hz : ∀ q ∈ z, q.1.2.length = m) (U D : Nat → ℚ) (i : Nat) (hi : i < z.length) :
    (stackBars z ((List.range m).map U) ((List.range m).map D))[2 * i]? =
      some (.bars z[i].1.1 (z[i].1.2.map fun x => max x 0) ((List.range m).map fun t => U t + ((z.take i).map fun q => max (q.1.2.getD t 0) 0).sum) z[i].2) ∧
    (stackBars z ((List.range m).map U) ((List.range m).map D))[2 * i + 1]? =
      some (.bars "" (z[i].1.2.map fun x => min x 0) ((List.range m).map fun t => D t + ((z.take i).map fun q => min (q.1.2.getD t 0) 0).sum) z[i].2) := by
  induction z generalizing U D i with
  | nil => cases hi
  | cons q z ih =>
    obtain ⟨q, color⟩ := q
    cases i with
    | zero => simp [stackBars]
    | succ i =>
      have hq : q.2.length = m := hz _ List.mem_cons_self
      simp only [stackBars]
      rw [zipWith_stack hq fun x => max x 0, zipWith_stack hq fun x => min x 0]
      have := ih (fun q hq => hz q (List.mem_cons_of_mem _ hq)) (fun t => U t + max (q.2.getD t 0) 0) (fun t => D t + min (q.2.getD t 0) 0) i (by simpa using hi)
      rw [show 2 * (i + 1) = 2 * i + 1 + 1 by ring, show 2 * i + 1 + 1 + 1 = (2 * i + 1) + 1 + 1 by ring]
      simp only [List.getElem?_cons_succ, List.getElem_cons_succ, List.take_succ_cons, List.map_cons, List.sum_cons]
      rw [this.1, this.2]
      simp only [add_assoc, and_self]

/-- **C90, matplotlib.**  Bars are stacked: the positive part of a column stands on the positive parts of the columns before, its negative part
hangs below the negative parts of those; only the former has a label. -/
theorem C90_bars {cfg : Cfg} {n : Nat} {times : List Int} {l : String} {invert : Bool} {fr : Frame} {colors : PlotColors}
    (h : toDataframe cfg σ n times s l (some (if invert then 1 else -1)) (some (if invert then -1 else 1)) (some (1 / 100000)) true = .ok fr)
    (hc : colors.Fits fr.cols.length) : ∃ fig, plotOperation cfg σ n times s l .bar colors .matplotlib invert = .ok fig ∧ fig.x = fr.index ∧
      fig.marks.length = 2 * fr.cols.length ∧ ∀ i (hi : i < fr.cols.length), ∃ col, (colors.matplotlib fr.cols.length)[i]? = some col ∧
        fig.marks[2 * i]? = some (.bars fr.cols[i].1 (fr.cols[i].2.map fun x => max x 0)
          ((List.range fr.cols[i].2.length).map fun t => ((fr.cols.take i).map fun q => max (q.2.getD t 0) 0).sum) col) ∧
        fig.marks[2 * i + 1]? = some (.bars "" (fr.cols[i].2.map fun x => min x 0)
          ((List.range fr.cols[i].2.length).map fun t => ((fr.cols.take i).map fun q => min (q.2.getD t 0) 0).sum) col) := by
  have h' : toDataframe cfg σ n times s l (some (if !invert then -1 else 1)) (some (if !invert then 1 else -1)) (some (1 / 100000)) true = .ok fr := by
    cases invert <;> exact h
  obtain ⟨⟨_, m, h2⟩, _⟩ := toDataframe_shape h
  have hlen := (matplotlib_length (k := fr.cols.length) colors).2 hc
  unfold plotOperation
  rw [h', ok_bind]
  simp only [withMatplotlib]
  rw [if_neg (by simp), if_neg (not_not.2 hlen), if_pos trivial]
  refine ⟨_, rfl, rfl, by simp [stackBars_length, hlen], fun i hi => ?_⟩
  have hrows : frameRows fr.cols = m := by
    obtain ⟨q, qs, e⟩ := List.exists_cons_of_ne_nil (l := fr.cols) (by intro e; rw [e] at hi; cases hi)
    rw [e]
    exact h2 q (by rw [e]; exact List.mem_cons_self)
  have hz : ∀ q ∈ fr.cols.zip (colors.matplotlib fr.cols.length), q.1.2.length = m := fun q hq => h2 _ (List.of_mem_zip hq).1
  have key := stackBars_get _ hz (fun _ => 0) (fun _ => 0) i (by simp [hlen, hi])
  have e0 : List.replicate m (0 : ℚ) = (List.range m).map fun _ => 0 := by simp [List.map_const']
  rw [hrows, e0]
  refine ⟨(colors.matplotlib fr.cols.length)[i], by simp [hlen, hi], ?_⟩
  have et : ∀ g : List ℚ → ℚ, (((fr.cols.zip (colors.matplotlib fr.cols.length)).take i).map fun q => g q.1.2) = (fr.cols.take i).map fun q => g q.2 := by
    intro g
    have := List.map_fst_zip (l₁ := fr.cols) (l₂ := colors.matplotlib fr.cols.length) (by rw [hlen])
    conv_rhs => rw [← this, ← List.map_take, List.map_map]
    rfl
  rw [h2 _ (List.getElem_mem hi)]
  simp only [List.getElem_zip, zero_add] at key
  have e1 : ∀ t, (((fr.cols.zip (colors.matplotlib fr.cols.length)).take i).map fun q => max (q.1.2.getD t 0) 0) = (fr.cols.take i).map fun q => max (q.2.getD t 0) 0 :=
    fun t => et fun v => max (v.getD t 0) 0
  have e2 : ∀ t, (((fr.cols.zip (colors.matplotlib fr.cols.length)).take i).map fun q => min (q.1.2.getD t 0) 0) = (fr.cols.take i).map fun q => min (q.2.getD t 0) 0 :=
    fun t => et fun v => min (v.getD t 0) 0
  simp only [e1, e2] at key
  exact key

/-- **C90, lines of matplotlib.** -/
theorem C90_steps {cfg : Cfg} {n : Nat} {times : List Int} {l : String} {invert : Bool} {fr : Frame} {colors : PlotColors}
    (h : toDataframe cfg σ n times s l (some (if invert then 1 else -1)) (some (if invert then -1 else 1)) (some (1 / 100000)) true = .ok fr)
    (hc : colors.Fits fr.cols.length) : plotOperation cfg σ n times s l .line colors .matplotlib invert =
      .ok { x := fr.index, marks := (fr.cols.zip (colors.matplotlib fr.cols.length)).map fun q => .step q.1.1 q.1.2 q.2 } := by
  have h' : toDataframe cfg σ n times s l (some (if !invert then -1 else 1)) (some (if !invert then 1 else -1)) (some (1 / 100000)) true = .ok fr := by
    cases invert <;> exact h
  have hlen := (matplotlib_length (k := fr.cols.length) colors).2 hc
  unfold plotOperation
  rw [h', ok_bind]
  simp only [withMatplotlib]
  rw [if_neg (by simp), if_neg (not_not.2 hlen), if_neg (by simp)]
  rfl

/-! ## Buses and storages -/

/-- What a mark adds to the height of the stacks in a step. -/
def Mark.height (t : Nat) : Mark → ℚ
  | .bars _ hs _ _ => hs.getD t 0
  | .trace _ ys _ _ => ys.getD t 0
  | .step _ ys _ => ys.getD t 0

theorem stackBars_sum (z : List ((String × List ℚ) × String)) (up down : List ℚ) (t : Nat) :
    ((stackBars z up down).map (Mark.height t)).sum = (z.map fun q => q.1.2.getD t 0).sum := by
  induction z generalizing up down with
  | nil => rfl
  | cons q z ih =>
    obtain ⟨q, color⟩ := q
    have e : (q.2.map fun x => max x 0).getD t 0 + (q.2.map fun x => min x 0).getD t 0 = q.2.getD t 0 := by
      simp only [List.getD_eq_getElem?_getD, List.getElem?_map]
      cases q.2[t]? with
      | none => simp
      | some x => simp [max_add_min]
    simp only [stackBars, List.map_cons, List.sum_cons, ih, Mark.height, ← add_assoc, e]

theorem abs_sum_le {l : List ℚ} {x : ℚ} (h : ∀ y ∈ l, |y| ≤ x) : |l.sum| ≤ l.length * x := by
  induction l with
  | nil => simp
  | cons a l ih =>
    have h1 := h a List.mem_cons_self
    have h2 := ih fun y hy => h y (List.mem_cons_of_mem _ hy)
    have h3 := abs_add_le a l.sum
    rw [List.sum_cons, List.length_cons]
    push_cast
    linarith

open Classical in
theorem dropped_sum {α} (l : List α) (p : α → Prop) (v : α → ℚ) {x : ℚ} (h0 : (l.map v).sum = 0) (h1 : ∀ a ∈ l, ¬ p a → |v a| ≤ x) (hx : 0 ≤ x) :
    |((l.filter fun a => decide (p a)).map v).sum| ≤ l.length * x := by
  have h2 : (l.map v).sum = ((l.filter fun a => decide (p a)).map v).sum + ((l.filter fun a => !decide (p a)).map v).sum := by
    rw [← List.sum_append, ← List.map_append]
    exact ((List.filter_append_perm (fun a => decide (p a)) l).map v).sum_eq.symm
  have h3 : ((l.filter fun a => decide (p a)).map v).sum = -((l.filter fun a => !decide (p a)).map v).sum := by linarith
  rw [h3, abs_neg]
  refine (abs_sum_le (x := x) ?_).trans ?_
  · intro y hy
    obtain ⟨a, ha, rfl⟩ := List.mem_map.1 hy
    obtain ⟨ha, hb⟩ := List.mem_filter.1 ha
    exact h1 a ha (by simpa using hb)
  · refine mul_le_mul_of_nonneg_right ?_ hx
    rw [List.length_map]
    exact_mod_cast List.length_filter_le _ _

/-- **C90, buses.**  In the bar chart of a bus the bars above the axis are in every step as high as those below are deep, apart from at most
`1e-5` for every series that the threshold hides. -/
theorem C90_bus (hv : sys.Valid) (h : systemModel sys s = .ok o) (hs : o.solver.Solves σ) (hn : 1 < sys.n) {times : List Int} (ht : times.length = sys.n + 1)
    (hl : (s.comps.map Comp.label ++ s.buses.map (·.label)).Nodup) (hub : ∀ b ∈ s.buses, OneUnderscore b.label)
    (hr : ∀ c ∈ s.comps, ∀ f ∈ c.flows, f.label ∉ ["OnOff", "PreventSimultaneousUsage", "MultipleSegments", "Investment"])
    {b : BusData} (hb : b ∈ s.buses) (hp : ∀ pen, b.excessPenalty = some pen → pen.Fits sys.n) {colors : PlotColors} {invert : Bool} {fig : Figure}
    (hf : plotOperation sys.cfg σ sys.n times s b.label .bar colors .matplotlib invert = .ok fig) :
    ∀ t ≤ sys.n, |(fig.marks.map (Mark.height t)).sum| ≤
      (((s.comps.map fun c => c.flows.filter fun f => f.bus = b.label).flatten.length : ℚ) + 2) * (1 / 100000) := by
  classical
  have hnd := flows_nodup h
  have hlc := (List.nodup_append.1 hl).1
  obtain ⟨ki, ko, hk, hki, hko⟩ : ∃ ki ko : ℚ, ki = -ko ∧ ki = (if !invert then -1 else 1) ∧ ko = (if !invert then 1 else -1) := by
    cases invert
    · exact ⟨-1, 1, rfl, rfl, rfl⟩
    · exact ⟨1, -1, by norm_num, rfl, rfl⟩
  have htab : elementTable sys.cfg σ sys.n s ((s.comps.map fun c => (compFlowRes σ sys.n c).map fun f => (f.labelFull, f)).flatten) b.label (some ki) (some ko) =
      .ok ((busFns σ s b ki ko).map fun q => (q.1, (List.range sys.n).map q.2)) := by
    unfold elementTable
    rw [(element_lookup sys.cfg sys.n hl).2.1 b hb, (flow_lookup σ sys.n hnd).2 b.label fun d _ f _ e => full_ne_of_plain (hub b hb) e.symm]
    simp only
    rw [busTable_eq sys.cfg σ hn hlc hnd hr b ki ko, tableCols_fns]
  have hall := allFlowResults_eq sys.cfg σ sys.n hlc hnd hr
  obtain ⟨f0, g1, _, g2, _⟩ := frame_of (inF := some ki) (outF := some ko) (thr := none) (w := true) (l := b.label) hn ht hall htab
  obtain ⟨f1, g3, _, g4, _⟩ := C88_bus_partial hv h hs hn ht hl hub hr hb hp ki ko none true
  rw [g3] at g1
  cases g1
  obtain ⟨f2, g5, g6, _⟩ := frame_eq hn ht (busFns σ s b ki ko) (some (1 / 100000)) true
  have hdf : toDataframe sys.cfg σ sys.n times s b.label (some ki) (some ko) (some (1 / 100000)) true = .ok f2 := by
    unfold toDataframe
    rw [hall, ok_bind, htab, ok_bind]
    exact g5
  unfold plotOperation at hf
  rw [← hki, ← hko, hdf, ok_bind] at hf
  simp only at hf
  peel hf with ms, hms
  cases hf
  unfold withMatplotlib at hms
  rw [if_neg (by simp)] at hms
  split at hms
  · cases hms
  rename_i hlen
  rw [if_pos rfl] at hms
  cases hms
  intro t htn
  have hlen' : (colors.matplotlib f2.cols.length).length = f2.cols.length := not_not.1 hlen
  rw [stackBars_sum]
  have e1 : ((f2.cols.zip (colors.matplotlib f2.cols.length)).map fun q => q.1.2.getD t 0) = f2.cols.map fun q => q.2.getD t 0 := by
    have := List.map_fst_zip (l₁ := f2.cols) (l₂ := colors.matplotlib f2.cols.length) (by rw [hlen'])
    conv_rhs => rw [← this, List.map_map]
    rfl
  rw [e1, g6, List.map_map]
  have hmin : min t (sys.n - 1) < sys.n := by omega
  have e2 : ∀ q : String × (Nat → ℚ), ((fun q : String × List ℚ => q.2.getD t 0) ∘ fun q : String × (Nat → ℚ) => (q.1, shownValues sys.n true q.2)) q = q.2 (min t (sys.n - 1)) :=
    fun q => shown_get (by rw [if_pos rfl]; omega)
  rw [List.map_congr_left fun q _ => e2 q]
  have h0 := g4 rfl hk t (by rw [if_pos rfl]; omega)
  rw [g2 rfl, List.map_map, List.map_congr_left fun q _ => e2 q] at h0
  refine (dropped_sum (busFns σ s b ki ko) _ _ h0 (x := 1 / 100000) ?_ (by norm_num)).trans ?_
  · intro q _ hq
    by_contra hc
    exact hq fun x hx => by cases hx; exact ⟨_, hmin, not_le.1 hc⟩
  · refine mul_le_mul_of_nonneg_right ?_ (by norm_num)
    have e3 : ((s.comps.map fun c => c.flows.filter fun f => f.bus = b.label).flatten).length =
        (sideLabels Comp.inputs s b.label).length + (sideLabels Comp.outputs s b.label).length := by
      unfold sideLabels
      generalize s.comps = cs
      induction cs with
      | nil => rfl
      | cons c cs ih =>
        have : (c.flows.filter fun f => f.bus = b.label).length = (c.inputs.filter fun f => f.bus = b.label).length + (c.outputs.filter fun f => f.bus = b.label).length := by
          rw [Comp.flows, List.filter_append, List.length_append]
        simp only [List.map_cons, List.flatten_cons, List.length_append, ih, this, List.length_map]
        omega
    have e4 : (busFns σ s b ki ko).length ≤ ((s.comps.map fun c => c.flows.filter fun f => f.bus = b.label).flatten).length + 2 := by
      rw [e3]
      unfold busFns
      simp only [List.length_append, List.length_map]
      split <;> simp <;> omega
    exact_mod_cast e4

/-- **C90, storages.**  `plot_storage` adds the charge states of the solution, one for each border between steps, to the plot of the flows. -/
theorem C90_storage_partial (hn : 1 < sys.n) {times : List Int} (hl : (s.comps.map Comp.label ++ s.buses.map (·.label)).Nodup)
    {st : StorageData} (hst : Comp.storage st ∈ s.comps) (h1 : st.charging.label ∉ ["charge_state", "netto_discharge"])
    (h2 : st.discharging.label ∉ ["charge_state", "netto_discharge"]) {mode : PlotMode} {colors : PlotColors} {invert : Bool} {fig : Figure}
    (hf : plotOperation sys.cfg σ sys.n times s st.label mode colors .plotly invert = .ok fig) :
    plotStorage sys.cfg σ sys.n times s st.label mode colors invert =
      .ok { fig with extra := fig.extra ++ [(times, .arr ((List.range (sys.n + 1)).map (σ (st.label ++ "_charge_state"))), "Charge State")] } := by
  unfold plotStorage
  rw [hf, ok_bind]
  unfold chargeStates
  rw [show st.label = (Comp.storage st).label from rfl, (element_lookup sys.cfg sys.n hl).1 _ hst]
  simp only
  rw [(C67_storage_partial (σ := σ) st sys.n sys.cfg h1 h2).1, ok_bind, ← seriesResult, seriesResult_many (by omega)]
  rfl

/-- **C90, other elements** have no charge states: `plot_storage` raises a `KeyError` for a bus and for a component without an entry of this name. -/
theorem C90_storage_other {times : List Int} (hl : (s.comps.map Comp.label ++ s.buses.map (·.label)).Nodup) {mode : PlotMode} {colors : PlotColors} {invert : Bool}
    {fig : Figure} {l : String} (hf : plotOperation sys.cfg σ sys.n times s l mode colors .plotly invert = .ok fig)
    (hx : (∃ b ∈ s.buses, l = b.label) ∨ ∃ c ∈ s.comps, l = c.label ∧ (∀ st, c ≠ .storage st) ∧ ∀ f ∈ c.flows, f.label ≠ "charge_state") :
    plotStorage sys.cfg σ sys.n times s l mode colors invert = .error .key := by
  unfold plotStorage
  rw [hf, ok_bind]
  unfold chargeStates
  rcases hx with ⟨b, hb, rfl⟩ | ⟨c, hc, rfl, h1, h2⟩
  · rw [(element_lookup sys.cfg sys.n hl).2.1 _ hb]
    rfl
  · rw [(element_lookup sys.cfg sys.n hl).1 _ hc]
    simp only
    have hnone : pyLookup ((c.res sys.cfg sys.n).results σ sys.n) "charge_state" = none := by
      have hown : (c.res sys.cfg sys.n).own = [] := by
        cases c with
        | storage st => exact absurd rfl (h1 st)
        | plain _ => rfl
        | converter _ => rfl
        | transmission _ => rfl
      obtain ⟨e1, e2, e3⟩ := res_label sys.cfg sys.n c
      unfold ResComp.results
      rw [hown, e1, e2, e3]
      refine (pyLookup_pyUpdate_of_not_mem [] ?_).trans rfl
      simp only [List.map_nil, List.nil_append, List.map_append, List.map_map, List.mem_append, not_or]
      refine ⟨?_, ?_⟩
      · constructor
        · intro hm
          obtain ⟨f, hf, e⟩ := List.mem_map.1 hm
          exact h2 f (List.mem_append_left _ hf) e
        · intro hm
          obtain ⟨f, hf, e⟩ := List.mem_map.1 hm
          exact h2 f (List.mem_append_right _ hf) e
      · intro hm
        obtain ⟨l, hl, e⟩ := List.mem_map.1 hm
        simp only [Function.comp] at e
        subst e
        have hk : ("charge_state" : String) ∉ reserved := by decide +kernel
        exact hk (others_reserved sys.cfg sys.n c _ hl)
    rw [pyLookup_eq] at hnone
    simp only [dictGet, hnone]
    rfl

/-! ## Examples and counterexamples -/

/-- The plots of a bus of a solved system: the table has columns, the colours fit. -/
example : ∃ fr, toDataframe exSys.cfg exSystemSol exSys.n [0, 1, 2, 3] exSystem "heat" (some 1) (some (-1)) (some (1 / 100000)) true = .ok fr ∧ fr.cols.length = 3 ∧
    ((plotOperation exSys.cfg exSystemSol exSys.n [0, 1, 2, 3] exSystem "heat" .area (.given ["red", "blue", "green"]) .plotly true).toOption.map fun fig => (fig.x, fig.marks)) =
      some (some [0, 1, 2, 3], [.trace "Boiler__th" [2, 4, 1, 1] "red" .up, .trace "Load__Q" [-2, -4, 0, 0] "blue" .down,
        .trace "Excess Output" [0, 0, -1, -1] "green" .down]) ∧
    ((plotOperation exSys.cfg exSystemSol exSys.n [0, 1, 2, 3] exSystem "heat" .bar (.given ["red", "blue", "green"]) .matplotlib true).toOption.map fun fig => (fig.x, fig.marks)) =
      some (some [0, 1, 2, 3], [.bars "Boiler__th" [2, 4, 1, 1] [0, 0, 0, 0] "red", .bars "" [0, 0, 0, 0] [0, 0, 0, 0] "red",
        .bars "Load__Q" [0, 0, 0, 0] [2, 4, 1, 1] "blue", .bars "" [-2, -4, 0, 0] [0, 0, 0, 0] "blue",
        .bars "Excess Output" [0, 0, 0, 0] [2, 4, 1, 1] "green", .bars "" [0, 0, -1, -1] [-2, -4, 0, 0] "green"]) :=
  ⟨⟨[("Boiler__th", [2, 4, 1, 1]), ("Load__Q", [-2, -4, 0, 0]), ("Excess Output", [0, 0, -1, -1])], some [0, 1, 2, 3]⟩, by decide +kernel, rfl, by decide +kernel,
    by decide +kernel⟩

/-- A storage whose operation is plotted. -/
def exTankSystem : System :=
  { effects := [], comps := [.storage exStorage], buses := [{ label := "el", excessPenalty := none }] }

/-- The hypotheses of the theorem about storages are met. -/
example : 1 < exSys.n ∧ (exTankSystem.comps.map Comp.label ++ exTankSystem.buses.map (·.label)).Nodup ∧ Comp.storage exStorage ∈ exTankSystem.comps ∧
    exStorage.charging.label ∉ ["charge_state", "netto_discharge"] ∧ exStorage.discharging.label ∉ ["charge_state", "netto_discharge"] ∧
    (plotOperation exSys.cfg exStorageSol exSys.n [0, 1, 2, 3] exTankSystem "st" .line (.given ["red", "blue"]) .plotly true).toOption.map (·.marks) =
      some [.trace "st__in" [22, 0, 0, 0] "red" .line, .trace "st__out" [0, -8, -2, -2] "blue" .line] :=
  ⟨by decide, by decide +kernel, by simp [exTankSystem], by decide +kernel, by decide +kernel, by decide +kernel⟩

/-- **C90 fails** for matplotlib with the mode that `plot_operation` has by default: no area can be drawn, whatever the element. -/
theorem C90_default_wrong {cfg : Cfg} {n : Nat} {times : List Int} {l : String} {invert : Bool} {fr : Frame} (colors : PlotColors)
    (h : toDataframe cfg σ n times s l (some (if invert then 1 else -1)) (some (if invert then -1 else 1)) (some (1 / 100000)) true = .ok fr) :
    plotOperation cfg σ n times s l .area colors .matplotlib invert = .error .assertion := by
  have h' : toDataframe cfg σ n times s l (some (if !invert then -1 else 1)) (some (if !invert then 1 else -1)) (some (1 / 100000)) true = .ok fr := by
    cases invert <;> exact h
  unfold plotOperation
  rw [h', ok_bind]
  rfl

/-- **C90 fails** for `with_plotly` itself: a column of zeros is drawn twice as an area. -/
theorem C90_zero_wrong : withPlotly [("a", [0, 0]), ("b", [1, 2])] .area (.given ["red", "blue"]) =
    .ok [.trace "a" [0, 0] "red" .up, .trace "b" [1, 2] "blue" .up, .trace "a" [0, 0] "red" .up] := by decide +kernel

end Flix
