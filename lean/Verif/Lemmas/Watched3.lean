import Verif.Lemmas.Watched2
import Verif.Props.EnergyUnits

/-!
# A system without the observed effect is as sensible as before
-/

namespace Flix

variable {sys : Sys} {s : System} {l l' : String} {n : Nat} {big : ℚ}

/-- No piecewise investment names the effect `l`. -/
def InvestParams.NoPieceOf (l : String) (q : InvestParams) : Prop := ∀ xs rs, q.effectsInSegments = some (xs, rs) → ∀ r ∈ rs, r.1 ≠ l

def Comp.NoPieceOf (l : String) (c : Comp) : Prop :=
  (∀ f ∈ c.flows, ∀ q, f.size = .invest q → q.NoPieceOf l) ∧ ∀ t q, c = .storage t → t.capacity = .invest q → q.NoPieceOf l

theorem without_freer : s.Freer big n (s.without l) ∧ (s.without l).Freer big n s := by
  have b : List.Forall₂ BusData.Freer s.buses s.buses := List.forall₂_same.2 fun b _ => ⟨rfl, id⟩
  refine ⟨⟨?_, b⟩, ⟨?_, b⟩⟩
  · exact List.forall₂_map_right_iff.2 (List.forall₂_same.2 fun c _ => (comp_mapEff c).1)
  · exact List.forall₂_map_left_iff.2 (List.forall₂_same.2 fun c _ => (comp_mapEff c).2)

theorem labels_without (es : List EffectData) : ((es.filter fun e => e.label ≠ l).map (EffectData.without l)).map (·.label) = (es.map (·.label)).filter fun a => a ≠ l := by
  rw [List.map_map, List.filter_map]
  rfl

theorem dict_known_without {es : List EffectData} (hw : ∀ e ∈ es, e.label = l → e.isStandard = false) {d : EffDict} (h : EffDict.Known es d) :
    EffDict.Known ((es.filter fun e => e.label ≠ l).map (EffectData.without l)) (EffDict.without l d) := by
  refine ⟨fun q hq => ?_, ?_⟩
  · obtain ⟨hq, hne⟩ := List.mem_filter.1 hq
    obtain ⟨e, he, hn⟩ := h.known q hq
    have hel : e.label ≠ l := by
      intro hel
      cases hq1 : q.1 with
      | some a =>
        rw [hq1] at hn hne
        have : a = e.label := by simpa [names] using hn
        simp [this, hel] at hne
      | none =>
        rw [hq1] at hn
        unfold names at hn
        cases hf : es.find? (·.isStandard) with
        | none => rw [hf] at hn; simp at hn
        | some x =>
          rw [hf] at hn
          have hx : x.label = e.label := by simpa using hn
          have := hw x (List.mem_of_find?_eq_some hf) (hx.trans hel)
          rw [List.find?_some hf] at this
          cases this
    exact ⟨e.without l, List.mem_map_of_mem (List.mem_filter.2 ⟨he, by simpa using hel⟩), by rw [names_without hw]; exact hn⟩
  · have := h.once.filter (fun q => q.1 ≠ some l)
    simp only [names_without hw]
    exact this

theorem comp_known_without {es : List EffectData} (hw : ∀ e ∈ es, e.label = l → e.isStandard = false) {c : Comp} (hp : c.NoPieceOf l) (h : c.Known es) :
    (c.mapEff (EffDict.without l)).Known ((es.filter fun e => e.label ≠ l).map (EffectData.without l)) := by
  have hoo : ∀ {q : OnOffParams}, q.Known es → (q.mapEff (EffDict.without l)).Known ((es.filter fun e => e.label ≠ l).map (EffectData.without l)) :=
    fun hq => ⟨dict_known_without hw hq.starts, dict_known_without hw hq.hours⟩
  have hin : ∀ {q : InvestParams}, q.NoPieceOf l → q.Known es → (q.mapEff (EffDict.without l)).Known ((es.filter fun e => e.label ≠ l).map (EffectData.without l)) := fun hn hq =>
    ⟨dict_known_without hw hq.fix, dict_known_without hw hq.specific, dict_known_without hw hq.divest, fun xs rs he => by
      obtain ⟨h1, h2⟩ := hq.segs xs rs he
      refine ⟨h1, fun r hr => ?_⟩
      rw [labels_without]
      exact List.mem_filter.2 ⟨h2 r hr, by simpa using hn xs rs he r hr⟩⟩
  refine ⟨fun f hf => ?_, fun q hq => ?_, fun t ht q hq => ?_⟩
  · rw [comp_mapEff_flows] at hf
    obtain ⟨f, hg, rfl⟩ := List.mem_map.1 hf
    have kf := h.flows f hg
    refine ⟨dict_known_without hw kf.hours, fun q hq => ?_, fun q hq => ?_⟩
    · obtain ⟨q, hr, rfl⟩ := map_someEff hq
      exact hoo (kf.onOff q hr)
    · obtain ⟨q, hr, rfl⟩ := size_of_mapEff hq
      exact hin (hp.1 f hg q hr) (kf.invest q hr)
  · rw [(comp_mapEff_shape c).2.2.2] at hq
    obtain ⟨q, hr, rfl⟩ := map_someEff hq
    exact hoo (h.onOff q hr)
  · obtain ⟨t, hu, rfl⟩ := storage_of_mapEff ht
    obtain ⟨q, hr, rfl⟩ := capacity_of_mapEff hq
    exact hin (hp.2 t q hu hr) (h.capacity t hu q hr)

theorem shares_known_without {d : List (String × Num)} {ls : List String} (h : (d.map (·.1)).Nodup ∧ ∀ q ∈ d, q.1 ∈ ls) :
    ((d.filter fun q => q.1 ≠ l).map (·.1)).Nodup ∧ ∀ q ∈ d.filter (fun q => q.1 ≠ l), q.1 ∈ ls.filter fun a => a ≠ l := by
  refine ⟨h.1.sublist (List.filter_sublist.map _), fun q hq => ?_⟩
  obtain ⟨h1, h2⟩ := List.mem_filter.1 hq
  exact List.mem_filter.2 ⟨h.2 q h1, h2⟩

theorem system_sane_without (hw : ∀ e ∈ s.effects, e.label = l → e.OnlyObserved) (hp : ∀ c ∈ s.comps, c.NoPieceOf l) (h : s.Sane sys) : (s.without l).Sane sys := by
  refine ⟨fun c hc => ?_, fun c hc => ?_, h.buses, fun e he => ?_, ?_⟩
  · obtain ⟨c, hd, rfl⟩ := List.mem_map.1 hc
    exact comp_sane_mapEff (h.comps c hd)
  · obtain ⟨c, hd, rfl⟩ := List.mem_map.1 hc
    exact comp_known_without (fun e he hl => (hw e he hl).standard) (hp c hd) (h.known c hd)
  · obtain ⟨e, hd, hne, rfl⟩ := mem_without he
    obtain ⟨h1, h2⟩ := h.effects e hd
    refine ⟨⟨fun q hq => h1.op q (List.mem_of_mem_filter hq), fun q hq => h1.inv q (List.mem_of_mem_filter hq), h1.minH, h1.maxH⟩, ⟨?_, ?_⟩⟩
    · show _ ∧ ∀ q ∈ _, _ ∈ ((s.effects.filter fun e => e.label ≠ l).map (EffectData.without l)).map (·.label)
      rw [labels_without]
      exact shares_known_without h2.operation
    · show _ ∧ ∀ q ∈ _, _ ∈ ((s.effects.filter fun e => e.label ≠ l).map (EffectData.without l)).map (·.label)
      rw [labels_without]
      exact shares_known_without h2.invest
  · obtain ⟨e, he, ho⟩ := h.objective
    refine ⟨e.without l, List.mem_map_of_mem (List.mem_filter.2 ⟨he, ?_⟩), ho⟩
    have : e.label ≠ l := by
      intro hl
      have := (hw e he hl).objective
      rw [ho] at this
      cases this
    simpa using this

theorem system_tied_without (h : s.Tied) : (s.without l).Tied := by
  refine ⟨fun c hc => ?_, fun b hb => ?_⟩
  · obtain ⟨c, hd, rfl⟩ := List.mem_map.1 hc
    have hc' := h.comps c hd
    refine ⟨fun f hf q hq => ?_, fun d hdd => ?_, fun t q ht hq => ?_⟩
    · rw [comp_mapEff_flows] at hf
      obtain ⟨f, hg, rfl⟩ := List.mem_map.1 hf
      obtain ⟨q, hr, rfl⟩ := size_of_mapEff hq
      exact hc'.flows f hg q hr
    · cases c with
      | plain _ => cases hdd
      | storage _ => cases hdd
      | transmission _ => cases hdd
      | converter d₀ =>
        cases hdd
        have hd' := hc'.converter d₀ rfl
        have e : (d₀.comp.mapEff (EffDict.without l)).inputs ++ (d₀.comp.mapEff (EffDict.without l)).outputs = (d₀.comp.inputs ++ d₀.comp.outputs).map (FlowData.mapEff (EffDict.without l)) :=
          List.map_append.symm
        refine ⟨fun fs hfs => ?_, fun hz => (hd'.segments hz).imp (fun h1 => ?_) id⟩
        · obtain ⟨q, hq, f, hf, hl⟩ := hd'.factors fs hfs
          refine ⟨q, hq, f.mapEff (EffDict.without l), ?_, hl⟩
          show _ ∈ (d₀.comp.mapEff (EffDict.without l)).inputs ++ (d₀.comp.mapEff (EffDict.without l)).outputs
          rw [e]
          exact List.mem_map_of_mem hf
        · show d₀.comp.onOff.map _ ≠ none
          simpa using h1
    · obtain ⟨t, hu, rfl⟩ := storage_of_mapEff ht
      obtain ⟨q, hr, rfl⟩ := capacity_of_mapEff hq
      exact hc'.storage t q hu hr
  · refine (h.buses b hb).imp id fun ⟨c, hc, f, hf, hl⟩ => ⟨c.mapEff (EffDict.without l), List.mem_map_of_mem hc, f.mapEff (EffDict.without l), ?_, hl⟩
    rw [comp_mapEff_flows]
    exact List.mem_map_of_mem hf

theorem system_labels_without (s : System) : (s.without l).labels.Sublist s.labels := by
  unfold System.labels System.without
  have e : (s.comps.map (Comp.mapEff (EffDict.without l))).map Comp.label = s.comps.map Comp.label := by
    rw [List.map_map]
    exact List.map_congr_left fun c _ => (comp_mapEff_shape c).1
  refine List.Sublist.append ?_ ?_
  · simp only [e]
    exact List.Sublist.refl _
  · show (((s.effects.filter fun e => e.label ≠ l).map (EffectData.without l)).map (·.label)).Sublist _
    rw [labels_without]
    exact List.filter_sublist

theorem system_named_without (h : s.Named) : (s.without l).Named := by
  refine ⟨fun a ha => h.names a ((system_labels_without s).subset ha), h.distinct.sublist ((system_labels_without s).append (List.Sublist.refl _)), fun c hc f hf => ?_, fun c hc => ?_, fun a b ha hb hi => ?_⟩
  · obtain ⟨c, hd, rfl⟩ := List.mem_map.1 hc
    rw [comp_mapEff_flows] at hf
    obtain ⟨f, hg, rfl⟩ := List.mem_map.1 hf
    exact h.flowNames c hd f hg
  · obtain ⟨c, hd, rfl⟩ := List.mem_map.1 hc
    rw [comp_mapEff_flows, List.map_map]
    exact h.flowDistinct c hd
  · obtain ⟨c, hd, e⟩ := List.mem_map.1 ha
    obtain ⟨c', hd', e'⟩ := List.mem_map.1 hb
    obtain ⟨a, rfl, rfl⟩ := storage_of_mapEff e
    obtain ⟨b, rfl, rfl⟩ := storage_of_mapEff e'
    exact h.noClash a b hd hd' hi

theorem proper_without (h : ∀ c ∈ s.comps, c.Proper sys ∧ c.CapacityNonneg) : ∀ c ∈ (s.without l).comps, c.Proper sys ∧ c.CapacityNonneg := by
  intro c hc
  obtain ⟨c, hd, rfl⟩ := List.mem_map.1 hc
  exact comp_proper_mapEff (h c hd)

end Flix
