import Verif.Lemmas.Outcome
import Verif.Lemmas.SerializeHistory
import Verif.Lemmas.Truncated
import Verif.Model.Wrap
/-
Lemmas about the rules which `findMatchingFilters` finds, and where they come from.
-/
namespace AdBlock
open Spec

variable {E : Env} {c : Client E} {fs : List Filter}

/-- The rules in the arrays which `findMatchingFilters` searches. -/
theorem listed_not_host (h : c.Holds fs) {s : Bool} {id : ListId}
    (hid : id = domList s ∨ id = antiList s ∨ id = plainList s ∨ id = fpList s) {f : Filter} (hf : f ∈ c.lists id) :
    f ∈ fs ∧ Kind s f ∧ has f.filterType FTHostOnly = false := by
  obtain ⟨hm, hc⟩ := h.mem.1 hf
  have hp := h.index.parsed f hm
  have hcl := h.index.classified f hm
  rcases hid with rfl | rfl | rfl | rfl
  · obtain ⟨_, h2, _⟩ := (in_domList hp hcl s).1 hc; exact ⟨hm, h2.1, h2.2.1⟩
  · obtain ⟨_, h2, _⟩ := (in_antiList hp hcl s).1 hc; exact ⟨hm, h2.1, h2.2.1⟩
  · obtain ⟨_, h2, _⟩ := (in_plainList hp hcl s).1 hc; exact ⟨hm, h2.1, h2.2.1⟩
  · obtain ⟨_, h2, h3, _⟩ := (in_fpList hp hcl s).1 hc; exact ⟨hm, h2, h3⟩

/-- A rule found is in one of the arrays or in the hash set of hosts. -/
theorem findMeets_cases {d : Client E} {s : Bool} {url : Bytes} {f : Filter} (h : d.FindMeets s url f) :
    (∃ id, (id = domList s ∨ id = antiList s ∨ id = plainList s ∨ id = fpList s) ∧ f ∈ d.lists id) ∨
    ∃ t i, d.hs s = some t ∧ f ∈ t.bucket (i % t.count) := by
  rcases h with h | h | h | h | ⟨t, n, ht, _, hm⟩
  · exact .inl ⟨_, .inl rfl, h⟩
  · exact .inl ⟨_, .inr (.inl rfl), h⟩
  · exact .inl ⟨_, .inr (.inr (.inl rfl)), h⟩
  · exact .inl ⟨_, .inr (.inr (.inr rfl)), h⟩
  · exact .inr ⟨t, _, ht, find_mem hm⟩

/-- The entries of the hash sets of hosts. -/
theorem entry_is_host (h : c.Holds fs) {s : Bool} {t : HSet Filter} (ht : c.hs s = some t) {i : Nat} {f : Filter}
    (hf : f ∈ t.bucket i) : ∃ g ∈ fs, HostRule s g ∧ f = g.bare := by
  obtain ⟨g, hg, rfl⟩ := List.mem_map.1 ((h.hosts ht).sub i f hf)
  obtain ⟨hg, he⟩ := List.mem_filter.1 hg
  exact ⟨g, hg, (entered_iff (h.index.parsed g hg) s).1 he, rfl⟩

/-- What `foundTexts` reports for a rule of the arrays. -/
theorem foundTexts_text {f : Filter} {pat : Bytes} (h : HasText f pat) : foundTexts (some f) = .ok (some pat, f.ruleDefinition) := by
  obtain ⟨h0, ⟨r, hr⟩, _⟩ := h
  simp only [foundTexts, hr, cstrAt_cstr h0, Res.bind_ok, Res.pure_eq]

theorem cstrAt_unterminated {p : Ptr} (h : 0 ∉ p) : cstrAt p = .ub .oobRead := by
  refine (cstrAt_oob p).eq fun s hc => ?_
  obtain ⟨t, rfl, _⟩ := cstrAt_ok hc
  simp at h

/-- The entries of the hash sets have no terminator. -/
theorem foundTexts_bare {g : Filter} {pat : Bytes} (h0 : 0 ∉ pat) (h : g.data = some (cstr pat)) :
    foundTexts (some g.bare) = .ub .oobRead := by
  rw [bare_of_text h]
  simp only [foundTexts, cstrAt_unterminated h0]
  rfl

/-- In an entry which has been read back, the host follows the text. -/
theorem foundTexts_readBack {f g : Filter} (h : ReadBack f g) : ∃ pat, HasBareText g pat ∧
    foundTexts (some g) = .ok (some (pat ++ g.host.getD []), none) := by
  have hs := h.same
  obtain ⟨text, q, ht, h0, rfl⟩ := h
  refine ⟨text, hs.text text ht, ?_⟩
  have e : (readEntry text f q).host.getD [] = f.host.getD [] := hs.host
  have hz : 0 ∉ text ++ f.host.getD [] := by simp [ht.1, h0]
  rw [e]
  simp only [foundTexts, readEntry]
  rw [← List.append_assoc, cstrAt_cstr hz]
  rfl

end AdBlock
