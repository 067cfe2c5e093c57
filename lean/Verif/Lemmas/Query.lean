import Verif.Lemmas.Index
/-
What the two halves of a query look for.
-/
namespace AdBlock
open Spec

theorem tagOk_iff (tags : List Bytes) (f : Filter) : tagOk tags f = true ↔ f.tag = [] ∨ f.tag ∈ tags := by
  simp [tagOk]

theorem hasMatching_ok {tags : List Bytes} {m : Filter → Res Bool} {l : List Filter} {r : Option Filter}
    (h : hasMatchingFilters tags m l = .ok r) :
    (∀ f, r = some f → f ∈ l ∧ m f = .ok true ∧ tagOk tags f = true) ∧
    (r = none → ∀ f ∈ l, ¬ (m f = .ok true ∧ tagOk tags f = true)) := by
  induction l with
  | nil => cases h; simp
  | cons g l ih =>
    unfold hasMatchingFilters at h
    obtain ⟨b, hb, h⟩ := Res.bind_eq_ok.1 h
    split at h
    · rename_i hc
      rw [Bool.and_eq_true] at hc
      cases h
      refine ⟨fun f hf => ?_, fun h => by simp at h⟩
      cases hf
      exact ⟨by simp, by rw [hb, hc.1], hc.2⟩
    · rename_i hc
      obtain ⟨h1, h2⟩ := ih h
      refine ⟨fun f hf => ?_, fun hr f hf => ?_⟩
      · obtain ⟨a, b⟩ := h1 f hf
        exact ⟨by simp [a], b⟩
      · rcases List.mem_cons.1 hf with rfl | hf
        · rintro ⟨h3, h4⟩
          rw [hb] at h3
          cases h3
          exact hc (by simp [h4])
        · exact h2 hr f hf

theorem hostSetLookup_ok {E : Env} {tags : List Bytes} {m : Filter → Res Bool} {s : HSet Filter} {ds : List Bytes}
    {r : Option Filter} (h : hostSetLookup E tags m s ds = .ok r) :
    (∀ f, r = some f → (∃ d ∈ ds, s.find (E.hash d) (fun f => hostKey f == d) = some f) ∧
      m f = .ok true ∧ tagOk tags f = true) ∧
    (r = none → ∀ d ∈ ds, ∀ f, s.find (E.hash d) (fun f => hostKey f == d) = some f →
      ¬ (m f = .ok true ∧ tagOk tags f = true) ∧ ∃ b, m f = .ok b) := by
  induction ds with
  | nil => cases h; simp
  | cons d ds ih =>
    unfold hostSetLookup at h
    have step : hostSetLookup E tags m s ds = .ok r →
        (∀ f, s.find (E.hash d) (fun f => hostKey f == d) = some f →
          ¬ (m f = .ok true ∧ tagOk tags f = true) ∧ ∃ b, m f = .ok b) →
        (∀ f, r = some f → (∃ d' ∈ d :: ds, s.find (E.hash d') (fun f => hostKey f == d') = some f) ∧
          m f = .ok true ∧ tagOk tags f = true) ∧
        (r = none → ∀ d' ∈ d :: ds, ∀ f, s.find (E.hash d') (fun f => hostKey f == d') = some f →
          ¬ (m f = .ok true ∧ tagOk tags f = true) ∧ ∃ b, m f = .ok b) := by
      intro h hd
      obtain ⟨h1, h2⟩ := ih h
      refine ⟨fun f hf => ?_, fun hr d' hd' => ?_⟩
      · obtain ⟨⟨d', a, b⟩, c⟩ := h1 f hf
        exact ⟨⟨d', by simp [a], b⟩, c⟩
      · rcases List.mem_cons.1 hd' with rfl | hd'
        · exact hd
        · exact h2 hr d' hd'
    split at h
    · rename_i hn
      exact step h fun f hf => by rw [show s.find (E.hash d) (fun f => hostKey f == d) = none from hn] at hf; cases hf
    · rename_i g hg
      obtain ⟨b, hb, h⟩ := Res.bind_eq_ok.1 h
      split at h
      · rename_i hc
        rw [Bool.and_eq_true] at hc
        cases h
        refine ⟨fun f hf => ?_, fun h => by simp at h⟩
        cases hf
        exact ⟨⟨d, by simp, hg⟩, by rw [hb, hc.1], hc.2⟩
      · rename_i hc
        refine step h fun f hf => ?_
        rw [show s.find (E.hash d) (fun f => hostKey f == d) = some g from hg] at hf
        cases hf
        refine ⟨?_, b, hb⟩
        rintro ⟨h3, h4⟩
        rw [hb] at h3
        cases h3
        exact hc (by simp [h4])

/-! ### the two halves of a query -/

section
variable {E : Env} (c : Client E)

def Client.bl (s : Bool) : Option E.fp.B := if s then c.exceptionBloom else c.bloom
def Client.hs (s : Bool) : Option (HSet Filter) := if s then c.hostExceptionSet else c.hostSet

/-- the indexes exist -/
structure Client.Ready : Prop where
  bl : ∀ s, (c.bl s).isSome = true
  hs : ∀ s, (c.hs s).isSome = true
  doms : ∀ d, (c.domSets d).isSome = true

/-- the rule is met in the half `s` of the query -/
def Client.Meets (s : Bool) (url : Bytes) (dom : Option Bytes) (f : Filter) : Prop :=
  (f ∈ c.lists (domList s) ∧ isNoFingerprintDomainHashSetMiss E (c.domSets (domSet s)) dom = false) ∨
  (f ∈ c.lists (antiList s) ∧ isNoFingerprintDomainHashSetMiss E (c.domSets (antiSet s)) dom = true) ∨
  f ∈ c.lists (plainList s) ∨
  (f ∈ c.lists (fpList s) ∧ bloomMiss E (c.bl s) url = false) ∨
  ∃ t d, c.hs s = some t ∧ d ∈ hostLookups (getUrlHost url) ∧ t.find (E.hash d) (fun f => hostKey f == d) = some f

/-- some rule decides the half `s` of the query -/
def Client.Decided (s : Bool) (url : Bytes) (ctx : Mask) (dom : Option Bytes) : Prop :=
  ∃ f, c.Meets s url dom f ∧ Acts c.tags url ctx dom f

/-- no rule decides the half `s`, and the comparisons with the host rules went well -/
structure Client.Undecided (s : Bool) (url : Bytes) (ctx : Mask) (dom : Option Bytes) : Prop where
  undecided : ¬ c.Decided s url ctx dom
  hosts : ∀ t d f, c.hs s = some t → d ∈ hostLookups (getUrlHost url) →
    t.find (E.hash d) (fun f => hostKey f == d) = some f → ∃ b, f.matches url ctx dom none = .ok b

/-- the possible outcomes of a query -/
inductive Client.QueryOut (c : Client E) (url : Bytes) (ctx : Mask) (dom : Option Bytes) (o : Outcome E) : Prop
  | free : c.Undecided false url ctx dom → o.block = false → o.filter = none → o.exception = none →
      Client.QueryOut c url ctx dom o
  | excepted (f e : Filter) : c.Meets false url dom f → Acts c.tags url ctx dom f → c.Meets true url dom e →
      Acts c.tags url ctx dom e → o.block = false → o.filter = some f → o.exception = some e → Client.QueryOut c url ctx dom o
  | blocked (f : Filter) : c.Meets false url dom f → Acts c.tags url ctx dom f → c.Undecided true url ctx dom →
      o.block = true → o.filter = some f → o.exception = none → Client.QueryOut c url ctx dom o

variable {c} {url : Bytes} {ctx : Mask} {dom : Option Bytes}

theorem hasMatching_call (hu : 0 ∉ url) {l : List Filter} (hp : ∀ f ∈ l, Parsed f) {r : Option Filter}
    (h : hasMatchingFilters c.tags (Client.callMatch E url ctx dom) l = .ok r) :
    (∀ f, r = some f → f ∈ l ∧ Acts c.tags url ctx dom f) ∧ (r = none → ∀ f ∈ l, ¬ Acts c.tags url ctx dom f) := by
  obtain ⟨h1, h2⟩ := hasMatching_ok h
  refine ⟨fun f hf => ?_, fun hr f hf ha => ?_⟩
  · obtain ⟨a, b, d⟩ := h1 f hf
    exact ⟨a, (callMatch_iff E (hp f a) hu ctx dom).1 b, (tagOk_iff _ _).1 d⟩
  · exact h2 hr f hf ⟨(callMatch_iff E (hp f hf) hu ctx dom).2 ha.1, (tagOk_iff _ _).2 ha.2⟩

/-- the rules seen in the first part of a half -/
def Client.MeetsFirst (c : Client E) (s : Bool) (dom : Option Bytes) (f : Filter) : Prop :=
  (f ∈ c.lists (domList s) ∧ isNoFingerprintDomainHashSetMiss E (c.domSets (domSet s)) dom = false) ∨
  (f ∈ c.lists (antiList s) ∧ isNoFingerprintDomainHashSetMiss E (c.domSets (antiSet s)) dom = true) ∨
  f ∈ c.lists (plainList s)

theorem noFpPhase_eq (ds as : DomId) (dl al l : ListId) :
    c.noFpPhase ds as dl al l url ctx dom =
      (if !isNoFingerprintDomainHashSetMiss E (c.domSets ds) dom then
        hasMatchingFilters c.tags (Client.callMatch E url ctx dom) (c.lists dl) else .ok none) >>= fun r1 =>
      (if r1.isNone && isNoFingerprintDomainHashSetMiss E (c.domSets as) dom then
        hasMatchingFilters c.tags (Client.callMatch E url ctx dom) (c.lists al) else .ok r1) >>= fun r2 =>
      if r2.isNone then hasMatchingFilters c.tags (Client.callMatch E url ctx dom) (c.lists l) else .ok r2 := by
  unfold Client.noFpPhase
  simp only
  generalize isNoFingerprintDomainHashSetMiss E (c.domSets ds) dom = dm
  generalize isNoFingerprintDomainHashSetMiss E (c.domSets as) dom = am
  cases dm with
  | false =>
    simp only [Bool.not_false, ↓reduceIte]
    congr 1
    funext r1
    cases (r1.isNone && am) <;> rfl
  | true =>
    cases am <;> rfl

theorem noFpPhase_ok (hu : 0 ∉ url) (hp : ∀ id, ∀ f ∈ c.lists id, Parsed f) (s : Bool) {r : Option Filter}
    (h : c.noFpPhase (domSet s) (antiSet s) (domList s) (antiList s) (plainList s) url ctx dom = .ok r) :
    (∀ f, r = some f → c.MeetsFirst s dom f ∧ Acts c.tags url ctx dom f) ∧
    (r = none → ∀ f, c.MeetsFirst s dom f → ¬ Acts c.tags url ctx dom f) := by
  have third : ∀ {r}, hasMatchingFilters c.tags (Client.callMatch E url ctx dom) (c.lists (plainList s)) = .ok r →
      (∀ f, r = some f → c.MeetsFirst s dom f ∧ Acts c.tags url ctx dom f) ∧
      (r = none → ∀ f ∈ c.lists (plainList s), ¬ Acts c.tags url ctx dom f) := by
    intro r h
    obtain ⟨h1, h2⟩ := hasMatching_call hu (hp _) h
    exact ⟨fun f hf => ⟨.inr (.inr (h1 f hf).1), (h1 f hf).2⟩, h2⟩
  -- the three lists, one after the other
  have key : ∀ {d a : Bool} {r1 r2 : Option Filter},
      (d = true → hasMatchingFilters c.tags (Client.callMatch E url ctx dom) (c.lists (domList s)) = .ok r1) →
      (d = false → r1 = none) →
      (r1 = none → a = true → hasMatchingFilters c.tags (Client.callMatch E url ctx dom) (c.lists (antiList s)) = .ok r2) →
      (r1 = none → a = false → r2 = none) → (∀ f, r1 = some f → r2 = some f) →
      (r2 = none → hasMatchingFilters c.tags (Client.callMatch E url ctx dom) (c.lists (plainList s)) = .ok r) →
      (∀ f, r2 = some f → r = some f) →
      isNoFingerprintDomainHashSetMiss E (c.domSets (domSet s)) dom = !d →
      isNoFingerprintDomainHashSetMiss E (c.domSets (antiSet s)) dom = a →
      (∀ f, r = some f → c.MeetsFirst s dom f ∧ Acts c.tags url ctx dom f) ∧
      (r = none → ∀ f, c.MeetsFirst s dom f → ¬ Acts c.tags url ctx dom f) := by
    intro d a r1 r2 a1 a2 a3 a4 a5 a6 a7 hd ha
    -- after the first list
    have s1 : (∀ f, r1 = some f → c.MeetsFirst s dom f ∧ Acts c.tags url ctx dom f) ∧
        (r1 = none → d = true → ∀ f ∈ c.lists (domList s), ¬ Acts c.tags url ctx dom f) := by
      cases d with
      | false => rw [a2 rfl]; simp
      | true =>
        obtain ⟨h1, h2⟩ := hasMatching_call hu (hp _) (a1 rfl)
        exact ⟨fun f hf => ⟨.inl ⟨(h1 f hf).1, by simpa using hd⟩, (h1 f hf).2⟩, fun h _ => h2 h⟩
    have s2 : (∀ f, r2 = some f → c.MeetsFirst s dom f ∧ Acts c.tags url ctx dom f) ∧
        (r2 = none → r1 = none ∧ (a = true → ∀ f ∈ c.lists (antiList s), ¬ Acts c.tags url ctx dom f)) := by
      cases h1 : r1 with
      | some g =>
        rw [a5 g h1]
        refine ⟨fun f hf => ?_, by simp⟩
        cases hf
        exact s1.1 g h1
      | none =>
        cases a with
        | false => rw [a4 h1 rfl]; simp
        | true =>
          obtain ⟨h3, h4⟩ := hasMatching_call hu (hp _) (a3 h1 rfl)
          exact ⟨fun f hf => ⟨.inr (.inl ⟨(h3 f hf).1, ha⟩), (h3 f hf).2⟩, fun h => ⟨rfl, fun _ => h4 h⟩⟩
    cases h2 : r2 with
    | some g =>
      rw [a7 g h2]
      refine ⟨fun f hf => ?_, by simp⟩
      cases hf
      exact s2.1 g h2
    | none =>
      obtain ⟨h3, h4⟩ := third (a6 h2)
      refine ⟨h3, fun hr f hf => ?_⟩
      obtain ⟨b1, b2⟩ := s2.2 h2
      rcases hf with ⟨hf, h5⟩ | ⟨hf, h5⟩ | hf
      · refine s1.2 b1 ?_ f hf
        rw [hd] at h5
        simpa using h5
      · exact b2 (ha ▸ h5) f hf
      · exact h4 hr f hf
  rw [noFpPhase_eq] at h
  obtain ⟨r1, e1, h⟩ := Res.bind_eq_ok.1 h
  obtain ⟨r2, e2, h⟩ := Res.bind_eq_ok.1 h
  refine key (d := !isNoFingerprintDomainHashSetMiss E (c.domSets (domSet s)) dom)
    (a := isNoFingerprintDomainHashSetMiss E (c.domSets (antiSet s)) dom) (r1 := r1) (r2 := r2)
    ?_ ?_ ?_ ?_ ?_ ?_ ?_ (by simp) rfl
  · intro hd; rwa [if_pos hd] at e1
  · intro hd; rw [if_neg (by simp [hd])] at e1; cases e1; rfl
  · intro h1 ha; rwa [if_pos (by simp [h1, ha])] at e2
  · intro h1 ha; rw [if_neg (by simp [ha])] at e2; cases e2; exact h1
  · intro f hf; rw [if_neg (by simp [hf])] at e2; cases e2; exact hf
  · intro h2; rwa [if_pos (by simp [h2])] at h
  · intro f hf; rw [if_neg (by simp [hf])] at h; cases h; exact hf


theorem meets_first {s : Bool} {f : Filter} (h : c.MeetsFirst s dom f) : c.Meets s url dom f := by
  rcases h with h | h | h
  · exact .inl h
  · exact .inr (.inl h)
  · exact .inr (.inr (.inl h))

/-- the lookup in the hash set of hosts -/
theorem hostMiss_ok {s : Bool} {r : SetRes} (hr : (c.hs s).isSome = true)
    (h : isHostAnchoredHashSetMiss E c.tags (Client.callMatchNoBloom url ctx dom) (c.hs s) (getUrlHost url) = .ok r) :
    r.miss = r.found.isNone ∧
    (∀ f, r.found = some f → c.Meets s url dom f ∧ Acts c.tags url ctx dom f) ∧
    (r.found = none → ∀ t d f, c.hs s = some t → d ∈ hostLookups (getUrlHost url) →
      t.find (E.hash d) (fun f => hostKey f == d) = some f →
      ¬ Acts c.tags url ctx dom f ∧ ∃ b, f.matches url ctx dom none = .ok b) := by
  obtain ⟨t, ht⟩ := Option.isSome_iff_exists.1 hr
  rw [ht] at h
  simp only [isHostAnchoredHashSetMiss] at h
  obtain ⟨o, ho, h⟩ := Res.bind_eq_ok.1 h
  cases h
  obtain ⟨h1, h2⟩ := hostSetLookup_ok ho
  refine ⟨rfl, fun f hf => ?_, fun hn t' d f ht' hd hf => ?_⟩
  · obtain ⟨⟨d, hd, hfd⟩, hm, htag⟩ := h1 f hf
    exact ⟨.inr (.inr (.inr (.inr ⟨t, d, ht, hd, hfd⟩))), hm, (tagOk_iff _ _).1 htag⟩
  · rw [ht] at ht'
    cases ht'
    obtain ⟨a, b⟩ := h2 hn d hd f hf
    refine ⟨fun ha => a ⟨ha.1, (tagOk_iff _ _).2 ha.2⟩, b⟩

/-- none of the rules met decides -/
theorem not_decided {s : Bool} (h1 : ∀ f, c.MeetsFirst s dom f → ¬ Acts c.tags url ctx dom f)
    (h2 : ∀ t d f, c.hs s = some t → d ∈ hostLookups (getUrlHost url) →
      t.find (E.hash d) (fun f => hostKey f == d) = some f →
      ¬ Acts c.tags url ctx dom f ∧ ∃ b, f.matches url ctx dom none = .ok b)
    (h3 : bloomMiss E (c.bl s) url = false → ∀ f ∈ c.lists (fpList s), ¬ Acts c.tags url ctx dom f) :
    c.Undecided s url ctx dom := by
  refine ⟨?_, fun t d f a1 a2 a3 => (h2 t d f a1 a2 a3).2⟩
  rintro ⟨f, hf, ha⟩
  rcases hf with h | h | h | ⟨h, hb⟩ | ⟨t, d, ht, hd, hf⟩
  · exact h1 f (.inl h) ha
  · exact h1 f (.inr (.inl h)) ha
  · exact h1 f (.inr (.inr h)) ha
  · exact h3 hb f h ha
  · exact (h2 t d f ht hd hf).1 ha

theorem blockPhase_ok (hr : c.Ready) (hu : 0 ∉ url) (hp : ∀ id, ∀ f ∈ c.lists id, Parsed f) {r : BlockRes E}
    (h : c.blockPhase url ctx dom = .ok r) :
    match r with
    | .hit mf => ∃ f, mf = some f ∧ c.Meets false url dom f ∧ Acts c.tags url ctx dom f
    | .done o => c.Undecided false url ctx dom ∧ o.block = false ∧ o.filter = none ∧ o.exception = none := by
  unfold Client.blockPhase at h
  obtain ⟨r1, e1, h⟩ := Res.bind_eq_ok.1 h
  obtain ⟨n1, n2⟩ := noFpPhase_ok hu hp false e1
  cases r1 with
  | some f => cases h; exact ⟨f, rfl, meets_first (n1 f rfl).1, (n1 f rfl).2⟩
  | none =>
    simp only at h
    obtain ⟨hr1, e2, h⟩ := Res.bind_eq_ok.1 h
    obtain ⟨m1, m2, m3⟩ := hostMiss_ok (s := false) (hr.hs false) e2
    split at h
    · rename_i hc
      rw [Bool.and_eq_true] at hc
      have hn : hr1.found = none := by simpa [m1] using hc.2
      cases h
      refine ⟨not_decided (n2 rfl) (m3 hn) ?_, rfl, hn, rfl⟩
      intro hb
      rw [show bloomMiss E (c.bl false) url = true from hc.1] at hb
      cases hb
    · rename_i hc
      split at h
      · rename_i hm
        cases h
        have : hr1.found.isSome = true := by
          rw [m1] at hm
          cases hf : hr1.found <;> simp [hf] at hm ⊢
        obtain ⟨f, hf⟩ := Option.isSome_iff_exists.1 this
        exact ⟨f, hf, m2 f hf⟩
      · rename_i hm
        have hn : hr1.found = none := by simpa [m1] using hm
        obtain ⟨r3, e3, h⟩ := Res.bind_eq_ok.1 h
        obtain ⟨k1, k2⟩ := hasMatching_call hu (hp _) e3
        have hbm : bloomMiss E (c.bl false) url = false := by
          have hmt : hr1.miss = true := by simpa using hm
          rw [hmt, Bool.and_true] at hc
          show bloomMiss E c.bloom url = false
          simpa using hc
        cases r3 with
        | some f =>
          cases h
          exact ⟨f, rfl, .inr (.inr (.inr (.inl ⟨(k1 f rfl).1, hbm⟩))), (k1 f rfl).2⟩
        | none =>
          simp only at h
          have nd : c.Undecided false url ctx dom := not_decided (n2 rfl) (m3 hn) fun _ => k2 rfl
          split at h
          · cases h; exact ⟨nd, rfl, rfl, rfl⟩
          · obtain ⟨bf, _, h⟩ := Res.bind_eq_ok.1 h
            cases h; exact ⟨nd, rfl, rfl, rfl⟩

theorem exceptionPhase_ok (hr : c.Ready) (hu : 0 ∉ url) (hp : ∀ id, ∀ f ∈ c.lists id, Parsed f) {mf : Option Filter}
    {o : Outcome E} (h : c.exceptionPhase mf url ctx dom = .ok o) :
    o.filter = mf ∧
    ((o.block = false ∧ ∃ f, o.exception = some f ∧ c.Meets true url dom f ∧ Acts c.tags url ctx dom f) ∨
     (o.block = true ∧ o.exception = none ∧ c.Undecided true url ctx dom)) := by
  unfold Client.exceptionPhase at h
  obtain ⟨r1, e1, h⟩ := Res.bind_eq_ok.1 h
  obtain ⟨n1, n2⟩ := noFpPhase_ok hu hp true e1
  cases r1 with
  | some f => cases h; exact ⟨rfl, .inl ⟨rfl, f, rfl, meets_first (n1 f rfl).1, (n1 f rfl).2⟩⟩
  | none =>
    simp only at h
    obtain ⟨hr1, e2, h⟩ := Res.bind_eq_ok.1 h
    obtain ⟨m1, m2, m3⟩ := hostMiss_ok (s := true) (hr.hs true) e2
    split at h
    · rename_i hc
      rw [Bool.and_eq_true] at hc
      have hn : hr1.found = none := by simpa [m1] using hc.2
      cases h
      refine ⟨rfl, .inr ⟨rfl, hn, not_decided (n2 rfl) (m3 hn) ?_⟩⟩
      intro hb
      rw [show bloomMiss E (c.bl true) url = true from hc.1] at hb
      cases hb
    · rename_i hc
      split at h
      · rename_i hm
        cases h
        have : hr1.found.isSome = true := by
          rw [m1] at hm
          cases hf : hr1.found <;> simp [hf] at hm ⊢
        obtain ⟨f, hf⟩ := Option.isSome_iff_exists.1 this
        exact ⟨rfl, .inl ⟨rfl, f, hf, m2 f hf⟩⟩
      · rename_i hm
        have hn : hr1.found = none := by simpa [m1] using hm
        obtain ⟨r3, e3, h⟩ := Res.bind_eq_ok.1 h
        obtain ⟨k1, k2⟩ := hasMatching_call hu (hp _) e3
        have hbm : bloomMiss E (c.bl true) url = false := by
          have hmt : hr1.miss = true := by simpa using hm
          rw [hmt, Bool.and_true] at hc
          show bloomMiss E c.exceptionBloom url = false
          simpa using hc
        cases r3 with
        | some f =>
          cases h
          exact ⟨rfl, .inl ⟨rfl, f, rfl, .inr (.inr (.inr (.inl ⟨(k1 f rfl).1, hbm⟩))), (k1 f rfl).2⟩⟩
        | none =>
          simp only at h
          have nd : c.Undecided true url ctx dom := not_decided (n2 rfl) (m3 hn) fun _ => k2 rfl
          split at h
          · cases h; exact ⟨rfl, .inr ⟨rfl, rfl, nd⟩⟩
          · obtain ⟨bf, _, h⟩ := Res.bind_eq_ok.1 h
            cases h; exact ⟨rfl, .inr ⟨rfl, rfl, nd⟩⟩

/-- The outcome of a query, for a client whose indexes exist. -/
theorem query_ok (hr : c.Ready) (hu : 0 ∉ url) (hp : ∀ id, ∀ f ∈ c.lists id, Parsed f) {co : Mask}
    (hweb : isBlockableProtocol (cstr url) url.length = .ok true) (hctx : resolveContext url co dom = ctx)
    {o : Outcome E} (h : c.query url co dom = .ok o) : c.QueryOut url ctx dom o := by
  unfold Client.query at h
  rw [hweb, Res.bind_ok] at h
  simp only [Bool.not_true, Bool.false_eq_true, ↓reduceIte, hctx] at h
  obtain ⟨r, e, h⟩ := Res.bind_eq_ok.1 h
  have hb := blockPhase_ok hr hu hp e
  cases r with
  | done o' =>
    cases h
    obtain ⟨h1, h2, h3, h4⟩ := hb
    exact .free h1 h2 h3 h4
  | hit mf =>
    obtain ⟨f, rfl, h1, h2⟩ := hb
    obtain ⟨h3, h4⟩ := exceptionPhase_ok hr hu hp h
    rcases h4 with ⟨h5, g, h6, h7, h8⟩ | ⟨h5, h6, h7⟩
    · exact .excepted f g h1 h2 h7 h8 h5 h3 h6
    · exact .blocked f h1 h2 h7 h5 h3 h6

/-- A query for any other address. -/
theorem query_not_web {co : Mask} (hweb : isBlockableProtocol (cstr url) url.length = .ok false) :
    c.query url co dom = .ok ⟨false, none, none, c.stats, c.badFps⟩ := by
  unfold Client.query
  rw [hweb, Res.bind_ok]
  rfl

end

end AdBlock
