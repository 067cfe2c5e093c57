import Verif.Lemmas.Truncated
import Verif.Props.Serialize
/-!
C60: reading serialised data stays inside of the data.

The length of the data is not passed to `deserialize`.  In the model a pointer is the list of the bytes
up to the end of its block, so `d.deserialize data` is the call with a block of exactly the given bytes
(ad_block_client_wrap.cc:375-378), and reading behind it is `UB.oobRead`.
-/
namespace AdBlock
open Spec

/-- C60 for complete data: whatever the rules, `deserialize` of what `serialize` has written, with
nothing behind it, stays inside of the data and loads them. -/
theorem C60_complete {E : Env} {c : Client E} {fs : List Filter} (hist : History E c fs) {ic ih : Bool}
    (hn : c.numHostAnchoredFilters < 2 ^ 31 ∧ c.numHostAnchoredExceptionFilters < 2 ^ 31) :
    ∃ s, c.serialize ic ih = .ok s ∧ (s.totalSize < 2 ^ 31 → ∀ d : Client E, ∃ d', d.deserialize s.buffer = .ok (some d')) := by
  refine ⟨_, serialize_eq (history_written hist) ic ih, fun hsize d => ?_⟩
  obtain ⟨d', h, -⟩ := history_reread hist hn hsize d []
  rw [List.append_nil] at h
  exact ⟨d', h⟩

/-- C60 for complete data, with the restrictions of C35: `deserialize` of what `serialize` has written, with nothing behind it,
and the queries afterwards stay inside of the data. -/
theorem C60_complete_partial {E : Env} {c : Client E} {fs : List Filter} (hist : History E c fs)
    {ic ih : Bool}
    (hr : ∀ f ∈ fs, LeftOut ic ih f ∨ Representable f)
    (hn : c.numHostAnchoredFilters < 2 ^ 31 ∧ c.numHostAnchoredExceptionFilters < 2 ^ 31) :
    ∃ s, c.serialize ic ih = .ok s ∧ (s.totalSize < 2 ^ 31 → ∀ d : Client E,
      ∃ d', d.deserialize s.buffer = .ok (some d') ∧
        ((∀ t, t ∈ d.tags ↔ t ∈ c.tags) → ∀ url ctx dom, 0 ∉ url →
          (∀ o, c.query url ctx dom = .ok o → ∃ o', d'.query url ctx dom = .ok o') ∧
          (∀ o, c.findMatchingFilters url ctx dom = .ok o → ∃ o', d'.findMatchingFilters url ctx dom = .ok o'))) := by
  obtain ⟨s, hs, h⟩ := C37_round_trip_partial hist hr hn
  refine ⟨s, hs, fun ht d => ?_⟩
  obtain ⟨d', h1, _, h2⟩ := h ht d []
  rw [List.append_nil] at h1
  refine ⟨d', h1, fun htags url ctx dom hu => ?_⟩
  obtain ⟨h3, h4⟩ := h2 htags url ctx dom hu
  exact ⟨fun o ho => (h3 o ho).imp fun _ h => h.1, fun o ho => (h4 o ho).imp fun _ h => h.1⟩

/-- C60 is violated by all data that are cut off, whatever the rules and wherever the cut: instead of
returning false, `deserialize` reads behind the end of the data. -/
theorem C60_cut_off_counterexample {E : Env} {c : Client E} {fs : List Filter} (hist : History E c fs)
    {ic ih : Bool}
    (hn : c.numHostAnchoredFilters < 2 ^ 31 ∧ c.numHostAnchoredExceptionFilters < 2 ^ 31) :
    ∃ s, c.serialize ic ih = .ok s ∧ (s.totalSize < 2 ^ 31 →
      ∀ n, n < s.buffer.length → ∀ d : Client E, d.deserialize (s.buffer.take n) = .ub .oobRead) := by
  refine ⟨_, serialize_eq (history_written hist) ic ih, fun hsize n hl d => ?_⟩
  refine deserialize_truncated (history_readable hist hn hsize) hsize d (List.take_append_drop n _) ?_
  intro h
  have := List.drop_eq_nil_iff.1 h
  exact absurd hl (Nat.not_lt.2 this)

/-- C60 is violated by the data of a client without rules as well: the header, cut off before the NUL. -/
theorem C60_header_counterexample {E : Env} (d : Client E) : ∃ s, (Client.fresh E).serialize false false = .ok s ∧
    s.buffer = bs%"0,0,0,0,0,0,0,0,0,0,0,0,0,0,0,0,0,0,0,0" ++ [0] ∧
    d.deserialize bs%"0,0,0,0,0,0,0,0,0,0,0,0,0,0,0,0,0,0,0,0" = .ub .oobRead := by
  have hw : WrittenClient (Client.fresh E) :=
    { rules := fun id f hf => by simp [Client.fresh] at hf
      hostSet := fun s h => by cases h
      hostExceptionSet := fun s h => by cases h }
  refine ⟨_, serialize_eq hw false false, ?_, ?_⟩
  · have h1 : (Client.fresh E).header false false = List.replicate 20 0 := rfl
    have h2 : ((Client.fresh E).arrays false false).flatMap arrayBytes = [] := rfl
    have h3 : (Client.fresh E).sections.flatten = [] := rfl
    simp only [Client.bytes, h1, h2, h3, List.append_nil]
    decide +kernel
  have h : cstrAt bs%"0,0,0,0,0,0,0,0,0,0,0,0,0,0,0,0,0,0,0,0" = .ub .oobRead := by decide +kernel
  unfold Client.deserialize
  rw [h]
  rfl

/-- the hypotheses hold for a client with two rules; here the last byte is missing -/
example : ∃ (c : Client toyEnv) (fs : List Filter) (s : Serialized), History toyEnv c fs ∧ (∀ f ∈ fs, Representable f) ∧
    fs.length = 2 ∧ c.serialize false false = .ok s ∧ s.totalSize < 2 ^ 31 ∧
    (∃ d', (Client.fresh toyEnv).deserialize s.buffer = .ok (some d')) ∧
    (Client.fresh toyEnv).deserialize (s.buffer.take (s.buffer.length - 1)) = .ub .oobRead := by
  obtain ⟨c, hist, hr, hn, _, hb, _⟩ := stored_history
  have hb := hb false false
  have he := serialize_eq (history_written hist) false false
  have hlen : 0 < (c.bytes false false).length := by
    simp only [Client.bytes, List.length_append, List.length_singleton]
    omega
  obtain ⟨s, hs, h⟩ := C60_cut_off_counterexample (ic := false) (ih := false) hist hn
  obtain ⟨s', hs', h'⟩ := C60_complete_partial (ic := false) (ih := false) hist (fun f hf => .inr (hr f hf)) hn
  rw [he] at hs hs'
  cases hs
  cases hs'
  obtain ⟨d', hd', _⟩ := h' hb (Client.fresh toyEnv)
  exact ⟨c, storedRules, _, hist, hr, rfl, he, hb, ⟨d', hd'⟩, h hb _ (Nat.sub_lt hlen (by decide)) _⟩

end AdBlock
