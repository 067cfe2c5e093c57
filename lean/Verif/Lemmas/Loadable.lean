import Verif.SpecLoad
import Verif.Lemmas.Reference
import Verif.Lemmas.ParseSafe
/-
Exactly which rules can be filed without overflowing the buffer for domains.
-/
namespace AdBlock
open Spec

theorem addDomains_iff (E : Env) (ds : List Bytes) (s : HSet Bytes) : (∃ s', addDomains E ds s = .ok s') ↔
    ∀ d ∈ ds, (d.head? ≠ some ch%'~' → d.length ≤ 1024) ∧ (d.head? = some ch%'~' → (d.drop 1).length ≤ 1024) := by
  induction ds generalizing s with
  | nil => simp [addDomains]
  | cons d ds ih =>
    rw [addDomains, List.forall_mem_cons]
    have hb : domainBuffer = 1024 := rfl
    by_cases h0 : d.length > 0
    · by_cases hd : d.head? = some ch%'~'
      · rw [if_neg (fun h => h.2 hd), if_pos h0]
        by_cases hl : d.length - 1 > domainBuffer
        · rw [if_pos hl]
          refine ⟨fun ⟨_, h⟩ => (by cases h), fun h => ?_⟩
          have := h.1.2 hd
          rw [List.length_drop] at this
          omega
        · rw [if_neg hl, ih]
          exact ⟨fun h => ⟨⟨fun h => absurd hd h, fun _ => by rw [List.length_drop]; omega⟩, h⟩, fun h => h.2⟩
      · rw [if_pos ⟨h0, hd⟩]
        by_cases hl : d.length > domainBuffer
        · rw [if_pos hl]
          refine ⟨fun ⟨_, h⟩ => (by cases h), fun h => ?_⟩
          have := h.1.1 hd
          omega
        · rw [if_neg hl, ih]
          exact ⟨fun h => ⟨⟨fun _ => by omega, fun h => absurd h hd⟩, h⟩, fun h => h.2⟩
    · rw [if_neg (fun h => h0 h.1), if_neg h0, ih]
      have : d = [] := List.eq_nil_of_length_eq_zero (by omega)
      subst this
      simp

theorem filterDomains_iff (E : Env) {f : Filter} {dl : Bytes} (hd : f.domainList = some dl) (s : HSet Bytes) :
    (∃ s', addFilterDomainsToHashSet E f s = .ok s') ↔
      (∀ d ∈ positive dl, d.length ≤ 1024) ∧ ∀ d ∈ negative dl, d.length ≤ 1024 := by
  unfold addFilterDomainsToHashSet
  rw [hd]
  show (∃ s', addDomains E (domainSegments dl) s = .ok s') ↔ _
  rw [addDomains_iff, domainSegments_eq]
  unfold positive negative
  simp only [List.mem_filter, List.mem_map, decide_eq_true_eq, and_imp, forall_exists_index]
  constructor
  · intro h
    refine ⟨fun d h1 h2 => (h d h1).1 h2, fun d x h1 h2 h3 => ?_⟩
    subst h3
    exact (h x h1).2 h2
  · exact fun ⟨h1, h2⟩ d hd => ⟨h1 d hd, fun h => h2 _ d hd h rfl⟩

theorem store_iff {E : Env} (b : Build E) {f : Filter} (hp : Parsed f) {cl : Class} (h : classify E.bad f = .ok cl) :
    (∃ b', b.store f cl = .ok b') ↔ ¬ DomainsOverflow E.bad f := by
  have easy : ∀ {cl}, (cl = .drop ∨ cl = .hostAnchored ∨ cl = .hostAnchoredException ∨ ∃ id, cl = .list id ∧ id.domId = none) →
      ¬ DomainsOverflow E.bad f → ((∃ b', b.store f cl = .ok b') ↔ ¬ DomainsOverflow E.bad f) := by
    intro cl hcl hn
    refine ⟨fun _ => hn, fun _ => ?_⟩
    rcases hcl with rfl | rfl | rfl | ⟨id, rfl, hid⟩
    · exact ⟨_, rfl⟩
    · exact ⟨_, rfl⟩
    · exact ⟨_, rfl⟩
    · simp only [Build.store, hid]; exact ⟨_, rfl⟩
  have hard : ∀ {id dm}, id.domId = some dm → (∃ dl, f.domainList = some dl) →
      (DomainsOverflow E.bad f ↔ ∃ dl, f.domainList = some dl ∧ ((∃ d ∈ positive dl, 1024 < d.length) ∨ ∃ d ∈ negative dl, 1024 < d.length)) →
      ((∃ b', b.store f (.list id) = .ok b') ↔ ¬ DomainsOverflow E.bad f) := by
    intro id dm hid ⟨dl, hdl⟩ ho
    have := filterDomains_iff E hdl (b.domSets dm)
    have e : (∃ b', b.store f (.list id) = .ok b') ↔ ∃ s', addFilterDomainsToHashSet E f (b.domSets dm) = .ok s' := by
      simp only [Build.store, hid]
      cases addFilterDomainsToHashSet E f (b.domSets dm) with
      | ub u => exact ⟨fun ⟨_, h⟩ => (by cases h), fun ⟨_, h⟩ => (by cases h)⟩
      | ok s => exact ⟨fun _ => ⟨s, rfl⟩, fun _ => ⟨_, rfl⟩⟩
    rw [e, this, ho]
    constructor
    · rintro ⟨h1, h2⟩ ⟨dl', h3, h4⟩
      rw [hdl] at h3
      cases h3
      rcases h4 with ⟨d, hd, h4⟩ | ⟨d, hd, h4⟩
      · have := h1 d hd; omega
      · have := h2 d hd; omega
    · intro hn
      refine ⟨fun d hd => Nat.le_of_not_lt fun hl => hn ⟨dl, hdl, .inl ⟨d, hd, hl⟩⟩,
        fun d hd => Nat.le_of_not_lt fun hl => hn ⟨dl, hdl, .inr ⟨d, hd, hl⟩⟩⟩
  have noKind : ∀ t, f.filterType = t → (∀ s : Bool, ¬ t &&& FTListTypesMask = if s then FTException else 0) → ¬ DomainsOverflow E.bad f := by
    rintro t rfl hn ⟨-, ⟨s, h, -⟩, -⟩
    exact hn s h
  cases classify_spec hp h with
  | unsupported hu => exact easy (.inl rfl) fun h => by have := h.1; rw [hu] at this; cases this
  | idle ht => exact easy (.inl rfl) (by rcases ht with ht | ht <;> exact noKind _ ht (by decide))
  | cosmetic ht =>
    exact easy (.inr (.inr (.inr ⟨_, rfl, rfl⟩))) (by rcases ht with ht | ht <;> exact noKind _ ht (by decide))
  | html ht => exact easy (.inr (.inr (.inr ⟨_, rfl, rfl⟩))) (noKind _ ht (by decide))
  | host s _ _ hh =>
    exact easy (by cases s <;> simp [hostClass]) (by
      rintro ⟨-, ⟨_, -, h, -⟩, -⟩
      rw [hh] at h; cases h)
  | fp s w _ _ _ hw =>
    have := (hasFingerprint_iff hp hw).1 rfl
    exact easy (.inr (.inr (.inr ⟨_, rfl, by cases s <;> rfl⟩))) (by
      rintro ⟨-, ⟨_, -, -, h⟩, -⟩
      exact h this)
  | dom s h1 h2 h3 h4 h5 =>
    have hfp : ¬ HasFingerprint E.bad f := fun h => by have := (hasFingerprint_iff hp h4).2 h; cases this
    obtain ⟨dl, hdl, hneg⟩ := (isDomainOnly_iff f).1 h5
    refine hard (dm := if s then .domainException else .domain) (by cases s <;> rfl) ⟨dl, hdl⟩ ⟨?_, ?_⟩
    · rintro ⟨-, -, dl', e, ⟨-, h⟩ | ⟨-, h⟩⟩
      · exact ⟨dl', e, .inl h⟩
      · exact ⟨dl', e, .inr h⟩
    · rintro ⟨dl', e, h⟩
      rw [hdl] at e; cases e
      refine ⟨h1, ⟨s, h2, h3, hfp⟩, dl, hdl, .inl ⟨hneg, ?_⟩⟩
      rcases h with h | ⟨d, hd, -⟩
      · exact h
      · rw [hneg] at hd; cases hd
  | anti s h1 h2 h3 h4 h5 =>
    have hfp : ¬ HasFingerprint E.bad f := fun h => by have := (hasFingerprint_iff hp h4).2 h; cases this
    obtain ⟨dl, hdl, hpos⟩ := (isAntiDomainOnly_iff f).1 h5
    refine hard (dm := if s then .antiDomainException else .antiDomain) (by cases s <;> rfl) ⟨dl, hdl⟩ ⟨?_, ?_⟩
    · rintro ⟨-, -, dl', e, ⟨-, h⟩ | ⟨-, h⟩⟩
      · exact ⟨dl', e, .inl h⟩
      · exact ⟨dl', e, .inr h⟩
    · rintro ⟨dl', e, h⟩
      rw [hdl] at e; cases e
      refine ⟨h1, ⟨s, h2, h3, hfp⟩, dl, hdl, .inr ⟨hpos, ?_⟩⟩
      rcases h with ⟨d, hd, -⟩ | h
      · rw [hpos] at hd; cases hd
      · exact h
  | plain s h1 h2 h3 h4 h5 h6 =>
    refine easy (.inr (.inr (.inr ⟨_, rfl, by cases s <;> rfl⟩))) ?_
    rintro ⟨-, -, dl, e, ⟨h, -⟩ | ⟨h, -⟩⟩
    · rw [(isDomainOnly_iff f).2 ⟨dl, e, h⟩] at h5; cases h5
    · rw [(isAntiDomainOnly_iff f).2 ⟨dl, e, h⟩] at h6; cases h6

/-- entering a rule that was read -/
theorem apply_ok {E : Env} (b : Build E) {f : Filter} {e : Effect} (hp : Parsed f) (he : EffectOf E.bad f e) :
    ∃ b1, b.apply f e = .ok b1 := by
  cases he with
  | noText _ => exact ⟨b, rfl⟩
  | other _ => exact ⟨b, rfl⟩
  | host hd _ =>
    rcases hp.text with h | ⟨pat, h0, hdat⟩
    · exact absurd h hd
    · have hcp := copy_ok hp h0 hdat
      split
      · simp only [Build.apply]; rw [hcp]; exact ⟨_, rfl⟩
      · simp only [Build.apply]; rw [hcp]; exact ⟨_, rfl⟩
  | noFp _ _ _ => exact ⟨b, rfl⟩
  | fp w _ _ _ => split <;> exact ⟨_, rfl⟩

/-- the second pass over a line -/
theorem fillLine_iff {E : Env} (pr : Bool) (b : Build E) {line : Bytes} (h0 : 0 ∉ line) {f : Filter} {e : Effect}
    (h : parseFilter E.bad line 0 pr true = .ok (f, e)) :
    (∃ b', fillLine E pr b (line, 0) = .ok b') ↔ (∃ cl, classify E.bad f = .ok cl) ∧ ¬ DomainsOverflow E.bad f := by
  obtain ⟨hp, _, he⟩ := parseFilter_facts (.inl rfl) h0 h
  obtain ⟨b1, hb1⟩ := apply_ok b hp (he rfl)
  unfold fillLine Build.enter
  rw [h, Res.bind_ok, hb1, Res.bind_ok]
  cases hc : classify E.bad f with
  | ub u => exact ⟨fun ⟨_, h⟩ => (by cases h), fun ⟨⟨_, h⟩, _⟩ => (by cases h)⟩
  | ok cl =>
    rw [Res.bind_ok, store_iff b1 hp hc]
    exact ⟨fun h => ⟨⟨cl, rfl⟩, h⟩, fun h => h.2⟩

end AdBlock
