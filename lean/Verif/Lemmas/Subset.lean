import Verif.Lemmas.Mapped
/-
Adding and removing rules.
-/
namespace AdBlock
open Spec

variable {bad tags : List Bytes} {fs gs : List Filter} {url : Bytes} {ctx : Mask} {dom : Option Bytes} {s : Bool}

/-- A rule that takes no part in the selection of rules of kind `s`. -/
structure Idle (bad : List Bytes) (s : Bool) (f : Filter) : Prop where
  host : ¬ HostRule s f
  negative : f.hasUnsupportedOptions = false → Unindexed bad s f → ¬ OnlyNegative f

theorem find_filter_host (p : Filter → Bool) (h : ∀ f ∈ fs, p f = false → ¬ HostRule s f) (k : Option Bytes) :
    (fs.filter p).find? (fun g => decide (HostRule s g ∧ g.host = k)) =
      fs.find? (fun g => decide (HostRule s g ∧ g.host = k)) := by
  rw [List.find?_filter]
  apply find?_congr_mem
  intro g hg
  cases hp : p g with
  | true => simp
  | false => simp [h g hg hp]

/-- Rules that do not act and take no part in the selection can be removed. -/
theorem someActs_filter (p : Filter → Bool) (h : ∀ f ∈ fs, p f = false → Idle bad s f ∧ ¬ (Kind s f ∧ Acts tags url ctx dom f)) :
    SomeActs bad tags s (fs.filter p) url ctx dom ↔ SomeActs bad tags s fs url ctx dom := by
  have hfind := fun k => find_filter_host (fs := fs) (s := s) p (fun f hf hp => (h f hf hp).1.host) k
  constructor
  · rintro ⟨f, hf, hk, hc, ha⟩
    obtain ⟨hf, _⟩ := List.mem_filter.1 hf
    refine ⟨f, hf, hk, ⟨fun hh => ?_, hc.positive, fun hu hn d hd g hg hsup hug hng => ?_⟩, ha⟩
    · obtain ⟨h1, h2⟩ := hc.host hh
      exact ⟨(hfind _).symm.trans h1, h2⟩
    · cases hp : p g with
      | true => exact hc.negative hu hn d hd g (List.mem_filter.2 ⟨hg, hp⟩) hsup hug hng
      | false => exact absurd hng ((h g hg hp).1.negative hsup hug)
  · rintro ⟨f, hf, hk, hc, ha⟩
    have hp : p f = true := by
      cases hp : p f with
      | true => rfl
      | false => exact absurd ⟨hk, ha⟩ (h f hf hp).2
    refine ⟨f, List.mem_filter.2 ⟨hf, hp⟩, hk, ⟨fun hh => ?_, hc.positive, fun hu hn d hd g hg => ?_⟩, ha⟩
    · obtain ⟨h1, h2⟩ := hc.host hh
      exact ⟨(hfind _).trans h1, h2⟩
    · exact hc.negative hu hn d hd g (List.mem_filter.1 hg).1

/-- Rules that act still do so when rules are appended, unless one of these closes the
index of excluded domains. -/
theorem someActs_append (hg : ∀ g ∈ gs, g.hasUnsupportedOptions = false → Unindexed bad s g → OnlyNegative g →
      ∀ dl, g.domainList = some dl → ∀ x ∈ negative dl, ∀ d, dom = some d → ¬ NameOf d x)
    (h : SomeActs bad tags s fs url ctx dom) : SomeActs bad tags s (fs ++ gs) url ctx dom := by
  obtain ⟨f, hf, hk, hc, ha⟩ := h
  refine ⟨f, List.mem_append.2 (.inl hf), hk, ⟨fun hh => ?_, hc.positive, fun hu hn d hd g hgm hsup hug hng dl hdl x hx => ?_⟩, ha⟩
  · obtain ⟨h1, h2⟩ := hc.host hh
    refine ⟨?_, h2⟩
    unfold FirstForHost
    rw [List.find?_append, h1]
    rfl
  · rcases List.mem_append.1 hgm with hgm | hgm
    · exact hc.negative hu hn d hd g hgm hsup hug hng dl hdl x hx
    · exact hg g hgm hsup hug hng dl hdl x hx d hd

/-- Appended rules of the other kind do not matter. -/
theorem someActs_append_other (hg : ∀ g ∈ gs, ¬ Kind s g) :
    SomeActs bad tags s (fs ++ gs) url ctx dom ↔ SomeActs bad tags s fs url ctx dom := by
  refine ⟨fun h => ?_, someActs_append fun g hgm _ hu => absurd hu.1 (hg g hgm)⟩
  obtain ⟨f, hf, hk, hc, ha⟩ := h
  rcases List.mem_append.1 hf with hf | hf
  · refine ⟨f, hf, hk, ⟨fun hh => ?_, hc.positive, fun hu hn d hd g hgm => hc.negative hu hn d hd g (List.mem_append.2 (.inl hgm))⟩, ha⟩
    obtain ⟨h1, h2⟩ := hc.host hh
    refine ⟨?_, h2⟩
    unfold FirstForHost at h1 ⊢
    rw [List.find?_append] at h1
    cases hx : fs.find? (fun g => decide (HostRule s g ∧ g.host = f.host)) with
    | some g => rw [hx] at h1; exact h1
    | none =>
      have := List.find?_eq_none.1 hx f hf
      simp [hh] at this
  · exact absurd hk (hg f hf)

end AdBlock
