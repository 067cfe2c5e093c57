import Verif.Lemmas.Fingerprint
import Verif.Props.Pattern
/-!
Properties of fingerprints: what they are (C16), and that they are never missed (C17).
-/
namespace AdBlock
open Spec

/-! ### C16 -/

/-- **C16**: the fingerprint taken from a text is its leftmost usable window of six bytes;
there is none only if the text has no usable window. -/
theorem C16_leftmost_usable_window (bad : List Bytes) (s : Bytes) :
    (∀ w, getFingerprintStr bad s = some w ↔ LeftmostFingerprint bad s w) ∧
    (getFingerprintStr bad s = none ↔ ∀ w, w <:+: s → ¬ UsableFingerprint bad w) := by
  have spec := getFingerprintStr_spec bad s
  cases h : getFingerprintStr bad s with
  | some w =>
    rw [h] at spec
    obtain ⟨hu, pre, post, he, hl⟩ := spec
    refine ⟨fun w' => ⟨?_, ?_⟩, ?_⟩
    · rintro ⟨⟩; exact ⟨hu, pre, post, he, hl⟩
    · rintro ⟨hu', pre', post', he', hl'⟩
      have h1 := hl pre' w' post' he' hu'
      have h2 := hl' pre w post he hu
      have hlen : pre.length = pre'.length := by omega
      rw [he, List.append_assoc, List.append_assoc] at he'
      have := List.append_inj he' hlen
      have := List.append_inj this.2 (by rw [hu.1, hu'.1])
      rw [this.1]
    · simp only [reduceCtorEq, false_iff]
      intro hn
      exact hn w ⟨pre, post, he.symm⟩ hu
  | none =>
    rw [h] at spec
    refine ⟨fun w' => ⟨by simp, ?_⟩, by simpa using spec⟩
    rintro ⟨hu', pre', post', he', hl'⟩
    exact absurd hu' (spec w' ⟨pre', post', he'.symm⟩)

/-- **C16** for rules: the fingerprint of a host anchored rule is preferably taken from the
text after the host, otherwise from the whole text; regular expressions have none. -/
theorem C16_rule_fingerprint (bad : List Bytes) (f : Filter) (pat : Bytes) (hf : HasText f pat)
    (hr : has f.filterType FTRegex = false) :
    (has f.filterType FTHostAnchored = false →
      getFingerprint bad f = .ok (getFingerprintStr bad pat)) ∧
    (∀ host, has f.filterType FTHostAnchored = true → f.host = some host → host.length ≤ pat.length →
      getFingerprint bad f =
        .ok ((getFingerprintStr bad (pat.drop host.length)).or (getFingerprintStr bad pat))) := by
  obtain ⟨h0, ⟨r, hd⟩, _⟩ := hf
  constructor
  · intro hh
    simp [getFingerprint, hr, hh, hd, cstrAt_cstr h0]
  · intro host hh hhost hl
    have h0' : 0 ∉ pat.drop host.length := fun e => h0 (List.mem_of_mem_drop e)
    have hdrop : (pat ++ 0 :: r).drop host.length = pat.drop host.length ++ 0 :: r :=
      List.drop_append_of_le_length hl
    cases hg : getFingerprintStr bad (pat.drop host.length) <;>
      simp [getFingerprint, hr, hh, hd, hhost, hdrop, cstrAt_cstr h0, cstrAt_cstr h0', hg]

example : getFingerprintStr [bs%"/ads/b"] bs%"http://x/ads/banner" = some bs%"ttp://" ∧
    getFingerprintStr [bs%"/ads/b"] bs%"/ads/banner" = some bs%"ads/ba" ∧
    getFingerprintStr [] bs%"http*www^short" = none := by decide +kernel
example : UsableFingerprint [bs%"/ads/b"] bs%"ads/ba" ∧ ¬ UsableFingerprint [bs%"/ads/b"] bs%"/ads/b" := by
  constructor
  · refine ⟨rfl, by decide, by decide, by decide, ?_⟩
    intro bf hbf
    simp only [List.mem_cons, List.not_mem_nil, or_false] at hbf
    subst hbf; decide
  · rintro ⟨_, _, _, _, h⟩
    exact h bs%"/ads/b" (by simp) (List.prefix_refl _)
example : ∃ f e, parseFilter [] bs%"||ads.com/banner" 0 false false = .ok (f, e) ∧ HasText f bs%"ads.com/banner" ∧
    f.host = some bs%"ads.com" ∧ getFingerprint [] f = .ok (some bs%"/banne") :=
  ⟨{ filterType := FTHostAnchored, data := some (cstr bs%"ads.com/banner"), host := some bs%"ads.com" }, .none,
    by decide +kernel, ⟨by decide, ⟨[], rfl⟩, .inl rfl⟩, rfl, by decide +kernel⟩

/-! ### C17 -/

/-- a fingerprint occurs in the text of its rule -/
theorem getFingerprint_infix {bad : List Bytes} {f : Filter} {pat fp : Bytes} (hf : HasText f pat)
    (hl' : (f.host.getD []).length ≤ pat.length ∨ f.data = some (cstr pat))
    (h : getFingerprint bad f = .ok (some fp)) : UsableFingerprint bad fp ∧ fp <:+: pat := by
  have use : ∀ s w, getFingerprintStr bad s = some w → UsableFingerprint bad w ∧ w <:+: s := by
    intro s w hw
    obtain ⟨hu, pre, post, he, _⟩ := ((C16_leftmost_usable_window bad s).1 w).1 hw
    exact ⟨hu, pre, post, he.symm⟩
  obtain ⟨h0, ⟨r, hd⟩, _⟩ := hf
  unfold getFingerprint at h
  by_cases hr : has f.filterType FTRegex = true
  · simp [hr] at h
  · simp only [hr, Bool.false_eq_true, ↓reduceIte] at h
    have whole : ∀ x : Option Bytes, x = getFingerprintStr bad pat → x = some fp →
        UsableFingerprint bad fp ∧ fp <:+: pat := fun x h1 h2 => use _ _ (by rw [← h1, h2])
    by_cases hh : has f.filterType FTHostAnchored = true
    · simp only [hh, ↓reduceIte, hd] at h
      cases hhost : f.host with
      | none => simp [hhost] at h
      | some host =>
        simp only [hhost, cstrAt_cstr h0, Res.map_ok] at h
        obtain ⟨a, ha, h⟩ := Res.bind_eq_ok.1 h
        obtain ⟨t, ht, hta⟩ := Res.map_eq_ok.1 ha
        by_cases hl : host.length ≤ pat.length
        · have h0' : 0 ∉ pat.drop host.length := fun e => h0 (List.mem_of_mem_drop e)
          rw [List.drop_append_of_le_length hl, cstrAt_cstr h0'] at ht
          simp only [Res.ok.injEq] at ht
          subst ht
          cases a with
          | none => exact whole _ rfl (by simpa using h)
          | some w =>
            simp only [Res.pure_eq, Res.ok.injEq, Option.some.injEq] at h
            subst h
            obtain ⟨h1, h2⟩ := use _ _ hta
            exact ⟨h1, h2.trans (List.drop_suffix _ _).isInfix⟩
        · -- a host longer than the text: what lies behind the terminator
          cases a with
          | none => exact whole _ rfl (by simpa using h)
          | some w =>
            exfalso
            rcases hl' with hl' | hl'
            · simp [hhost] at hl'; omega
            · rw [hd] at hl'
              simp only [cstr, Option.some.injEq, List.append_cancel_left_eq, List.cons.injEq, true_and] at hl'
              subst hl'
              rw [List.drop_eq_nil_of_le (by simp; omega)] at ht
              simp [cstrAt] at ht
    · simp only [hh, Bool.false_eq_true, ↓reduceIte, hd, Res.pure_eq, Res.bind_ok, cstrAt_cstr h0,
        Res.map_ok, Res.ok.injEq] at h
      exact whole _ rfl h

/-- **C17**: if a rule (in the lists) matches an address, its fingerprint occurs literally
in the address. -/
theorem C17_fingerprint_in_url (bad : List Bytes) (f : Filter) (pat fp url : Bytes) (ctx : Mask)
    (dom : Option Bytes) (hf : HasText f pat)
    (hl : (f.host.getD []).length ≤ pat.length ∨ f.data = some (cstr pat))
    (hfp : getFingerprint bad f = .ok (some fp)) (hu : 0 ∉ url)
    (h : f.matches url ctx dom none = .ok true) : fp <:+: url := by
  obtain ⟨husable, hin⟩ := getFingerprint_infix hf hl hfp
  have hc : ch%'^' ∉ fp := fun e => (husable.2.1 _ e).2.2 rfl
  have hst : ch%'*' ∉ fp := fun e => (husable.2.1 _ e).2.1 rfl
  have hm : f.matchesOptions ctx dom = true := by
    by_cases hm : f.matchesOptions ctx dom = true
    · exact hm
    · rw [matches_false_of_options' hm] at h; simp at h
  by_cases h1 : has f.filterType FTRegex = true
  · obtain ⟨r, hr⟩ := matches_of_text hf url ctx dom none hm
    rw [hr] at h
    simp [Filter.matchesPattern, h1] at h
  · have h1 : has f.filterType FTRegex = false := by simpa using h1
    by_cases h2 : has f.filterType FTLeftAnchored = true
    · by_cases h3 : has f.filterType FTRightAnchored = true
      · obtain ⟨b, hb, hi⟩ := C09_both_anchors f pat url ctx dom none hf hu h1 h2 h3
        rw [h] at hb; cases hb
        rw [(hi.1 rfl).2]; exact hin
      · obtain ⟨b, hb, hi⟩ := C09_left_anchor f pat url ctx dom none hf hu h1 h2 (by simpa using h3)
        rw [h] at hb; cases hb
        exact hin.trans (hi.1 rfl).2.isInfix
    · have h2 : has f.filterType FTLeftAnchored = false := by simpa using h2
      by_cases h3 : has f.filterType FTRightAnchored = true
      · obtain ⟨b, hb, hi⟩ := C09_right_anchor f pat url ctx dom none hf hu h1 h2 h3
        rw [h] at hb; cases hb
        exact hin.trans (hi.1 rfl).2.isInfix
      · have h3 : has f.filterType FTRightAnchored = false := by simpa using h3
        have hpl : Placed pat url := by
          obtain ⟨r, hr⟩ := matches_of_text hf url ctx dom none hm
          rw [hr] at h
          simp only [Filter.matchesPattern, h1, h2, h3, Bool.and_self, Bool.false_eq_true, ↓reduceIte] at h
          split at h
          · simp at h
          · have := wildMatch_spec url pat (0 :: r) hu hf.1 (.inl ⟨r, rfl⟩)
            rw [h] at this
            exact this.1 rfl
        obtain ⟨p, hp, hw⟩ := infix_part hin hst
        exact infix_of_placedParts hc hp hw hpl

/-- **C17** for the bloom filters: a filter to which the fingerprint has been added (and
then anything else) reports a possible match for every address the rule matches. -/
theorem C17_bloom_lookup_hits (E : Env) (f : Filter) (pat fp url : Bytes) (ctx : Mask)
    (dom : Option Bytes) (hf : HasText f pat)
    (hl : (f.host.getD []).length ≤ pat.length ∨ f.data = some (cstr pat))
    (hfp : getFingerprint E.bad f = .ok (some fp)) (hu : 0 ∉ url) (hroll : E.fp.rolls url)
    (h : f.matches url ctx dom none = .ok true) (b : E.fp.B) (later : List Bytes) :
    E.fp.substr (later.foldl E.fp.add (E.fp.add b fp)) url kFingerprintSize = true := by
  have hin := C17_fingerprint_in_url E.bad f pat fp url ctx dom hf hl hfp hu h
  have hlen := (getFingerprint_infix hf hl hfp).1.1
  have := E.fp.substr_of_mem _ url fp hroll hin
    (mem_foldl_add E.fp later _ fp (.inl (E.fp.mem_add_self b fp)))
  rw [hlen] at this
  exact this

example : ∃ f e, parseFilter [] bs%"/ads/banner*.gif" 0 false false = .ok (f, e) ∧
    HasText f bs%"/ads/banner*.gif" ∧ f.data = some (cstr bs%"/ads/banner*.gif") ∧
    getFingerprint [] f = .ok (some bs%"/ads/b") ∧
    f.matches bs%"http://x.com/ads/banner/1.gif" 0 none none = .ok true :=
  ⟨{ data := some (cstr bs%"/ads/banner*.gif") }, .none,
    by decide +kernel, ⟨by decide, ⟨[], rfl⟩, .inl rfl⟩, rfl, by decide +kernel, by decide +kernel⟩

end AdBlock
