import Verif.SpecClient
import Verif.Lemmas.Reference
/-
Changing rules in ways that the selection of rules does not see.
-/
namespace AdBlock
open Spec

/-- `φ` changes neither kind, text, host nor domains of a rule. -/
structure Keeping (φ : Filter → Filter) : Prop where
  filterType : ∀ f, (φ f).filterType = f.filterType
  data : ∀ f, (φ f).data = f.data
  dataLen : ∀ f, (φ f).dataLen = f.dataLen
  host : ∀ f, (φ f).host = f.host
  domainList : ∀ f, (φ f).domainList = f.domainList
  unsupported : ∀ f, (φ f).hasUnsupportedOptions = f.hasUnsupportedOptions

variable {φ : Filter → Filter} (k : Keeping φ)
include k

theorem Keeping.kind (s : Bool) (f : Filter) : Kind s (φ f) ↔ Kind s f := by
  simp [Kind, k.filterType]

theorem Keeping.hostRule (s : Bool) (f : Filter) : HostRule s (φ f) ↔ HostRule s f := by
  simp [HostRule, k.kind, k.filterType, k.data]

theorem Keeping.hasFingerprint (bad : List Bytes) (f : Filter) : HasFingerprint bad (φ f) ↔ HasFingerprint bad f := by
  simp [HasFingerprint, HasText, k.filterType, k.data, k.dataLen]

theorem Keeping.unindexed (bad : List Bytes) (s : Bool) (f : Filter) : Unindexed bad s (φ f) ↔ Unindexed bad s f := by
  simp [Unindexed, k.kind, k.filterType, k.hasFingerprint]

theorem Keeping.onlyPositive (f : Filter) : OnlyPositive (φ f) ↔ OnlyPositive f := by
  simp [OnlyPositive, k.domainList]

theorem Keeping.onlyNegative (f : Filter) : OnlyNegative (φ f) ↔ OnlyNegative f := by
  simp [OnlyNegative, k.domainList]

theorem Keeping.find (s : Bool) (fs : List Filter) (h : Option Bytes) :
    (fs.map φ).find? (fun g => decide (HostRule s g ∧ g.host = h)) =
      (fs.find? (fun g => decide (HostRule s g ∧ g.host = h))).map φ := by
  rw [List.find?_map]
  congr 2
  funext g
  simp [k.hostRule, k.host]

theorem Keeping.considered (bad : List Bytes) (s : Bool) (fs : List Filter) (url : Bytes) (dom : Option Bytes) (f : Filter)
    (hc : Considered bad s fs url dom f) : Considered bad s (fs.map φ) url dom (φ f) := by
  refine ⟨fun hh => ?_, fun hu hp => hc.positive ((k.unindexed ..).1 hu) ((k.onlyPositive _).1 hp), fun hu hn d hd g hg => ?_⟩
  · obtain ⟨h1, h2⟩ := hc.host ((k.hostRule ..).1 hh)
    refine ⟨?_, by rw [k.host]; exact h2⟩
    unfold FirstForHost
    rw [k.host, k.find, h1]
    rfl
  · obtain ⟨g, hgm, rfl⟩ := List.mem_map.1 hg
    rw [k.unsupported, k.unindexed, k.onlyNegative, k.domainList]
    exact hc.negative ((k.unindexed ..).1 hu) ((k.onlyNegative _).1 hn) d hd g hgm

theorem Keeping.considered_map (bad : List Bytes) (s : Bool) (fs : List Filter) (url : Bytes) (dom : Option Bytes) (f : Filter)
    (hf : f ∈ fs) (hc : Considered bad s (fs.map φ) url dom (φ f)) : ∃ g ∈ fs, φ g = φ f ∧ Considered bad s fs url dom g := by
  have rest : ∀ g, φ g = φ f → (HostRule s g → FirstForHost s fs g ∧ NameOf (getUrlHost url) (g.host.getD [])) →
      Considered bad s fs url dom g := by
    intro g he h
    refine ⟨h, fun hu hp => ?_, fun hu hn d hd x hx h1 h2 h3 dl h4 y hy => ?_⟩
    · refine hc.positive ?_ ?_
      · rw [← he]; exact (k.unindexed ..).2 hu
      · rw [← he]; exact (k.onlyPositive _).2 hp
    · refine hc.negative ?_ ?_ d hd (φ x) (List.mem_map.2 ⟨x, hx, rfl⟩) ?_ ?_ ?_ dl ?_ y hy
      · rw [← he]; exact (k.unindexed ..).2 hu
      · rw [← he]; exact (k.onlyNegative _).2 hn
      · rw [k.unsupported]; exact h1
      · exact (k.unindexed ..).2 h2
      · exact (k.onlyNegative _).2 h3
      · rw [k.domainList]; exact h4
  by_cases hh : HostRule s f
  · obtain ⟨h1, h2⟩ := hc.host ((k.hostRule ..).2 hh)
    unfold FirstForHost at h1
    rw [k.host, k.find] at h1
    cases hx : fs.find? (fun g => decide (HostRule s g ∧ g.host = f.host)) with
    | none => rw [hx] at h1; cases h1
    | some g =>
      rw [hx] at h1
      simp only [Option.map_some, Option.some.injEq] at h1
      have hp := List.find?_some hx
      simp only [decide_eq_true_eq] at hp
      refine ⟨g, List.mem_of_find?_eq_some hx, h1, rest g h1 fun _ => ⟨?_, ?_⟩⟩
      · unfold FirstForHost; rw [hp.2]; exact hx
      · rw [hp.2, ← k.host]; exact h2
  · exact ⟨f, hf, rfl, rest f rfl fun h => absurd h hh⟩

/-- The selection of rules does not see such changes. -/
theorem Keeping.someActs {tags tags' : List Bytes} {url : Bytes} {ctx : Mask} {dom : Option Bytes} {fs : List Filter}
    (ha : ∀ f ∈ fs, Acts tags' url ctx dom (φ f) ↔ Acts tags url ctx dom f) (bad : List Bytes) (s : Bool) :
    SomeActs bad tags' s (fs.map φ) url ctx dom ↔ SomeActs bad tags s fs url ctx dom := by
  constructor
  · rintro ⟨f', hf', hk, hc, h⟩
    obtain ⟨f, hf, rfl⟩ := List.mem_map.1 hf'
    obtain ⟨g, hg, he, hcg⟩ := k.considered_map bad s fs url dom f hf hc
    refine ⟨g, hg, ?_, hcg, ?_⟩
    · rw [← he] at hk; exact (k.kind ..).1 hk
    · rw [← he] at h; exact (ha g hg).1 h
  · rintro ⟨f, hf, hk, hc, h⟩
    exact ⟨φ f, List.mem_map.2 ⟨f, hf, rfl⟩, (k.kind ..).2 hk, k.considered bad s fs url dom f hc, (ha f hf).2 h⟩

theorem Keeping.noEmptyExclusion (bad : List Bytes) (s : Bool) (fs : List Filter) :
    NoEmptyExclusion bad s (fs.map φ) ↔ NoEmptyExclusion bad s fs := by
  simp only [NoEmptyExclusion, List.forall_mem_map, k.unindexed, k.onlyNegative, k.domainList]

end AdBlock
