import Verif.Lemmas.Basic
import Verif.Lemmas.Masks
/-! Helper lemmas on rule options and `domain=` lists. -/
namespace AdBlock
open Spec

theorem splitOn_ne_nil (sep : Byte) (s : Bytes) : splitOn sep s ≠ [] := by
  cases s with
  | nil => simp [splitOn]
  | cons c s =>
    simp only [splitOn]
    split
    · simp
    · split <;> simp

theorem splitOn_cons_of_ne {sep c : Byte} {s p : Bytes} {ps : List Bytes} (h : c ≠ sep)
    (hs : splitOn sep s = p :: ps) : splitOn sep (c :: s) = (c :: p) :: ps := by
  simp [splitOn, h, hs]

theorem splitOn_cons_sep (sep : Byte) (s : Bytes) : splitOn sep (sep :: s) = [] :: splitOn sep s := by
  simp [splitOn]

theorem splitOn_of_not_mem {sep : Byte} {s : Bytes} (h : sep ∉ s) : splitOn sep s = [s] := by
  induction s with
  | nil => rfl
  | cons c s ih =>
    have hc : c ≠ sep := fun e => h (by simp [e])
    exact splitOn_cons_of_ne hc (ih (fun e => h (by simp [e])))

theorem splitOn_append_sep {sep : Byte} {a b : Bytes} (h : sep ∉ a) :
    splitOn sep (a ++ sep :: b) = a :: splitOn sep b := by
  induction a with
  | nil => simp [splitOn]
  | cons c a ih =>
    have hc : c ≠ sep := fun e => h (by simp [e])
    exact splitOn_cons_of_ne hc (ih (fun e => h (by simp [e])))

theorem domainSegmentsLoop_eq (cur s : Bytes) {p : Bytes} {ps : List Bytes}
    (h : splitOn ch%'|' s = p :: ps) : domainSegmentsLoop cur s = (cur ++ p) :: ps := by
  induction s generalizing cur p ps with
  | nil => simp [splitOn] at h; simp [domainSegmentsLoop, h]
  | cons c s ih =>
    by_cases hc : c = ch%'|'
    · subst hc
      rw [splitOn_cons_sep] at h
      simp only [List.cons.injEq] at h
      simp only [domainSegmentsLoop, ↓reduceIte, ← h.1, List.append_nil]
      congr 1
      obtain ⟨q, qs, hq⟩ := List.exists_cons_of_ne_nil (splitOn_ne_nil ch%'|' s)
      rw [ih [] hq, ← h.2, hq]; rfl
    · obtain ⟨q, qs, hq⟩ := List.exists_cons_of_ne_nil (splitOn_ne_nil ch%'|' s)
      rw [splitOn_cons_of_ne hc hq] at h
      simp only [List.cons.injEq] at h
      simp only [domainSegmentsLoop, hc, ↓reduceIte]
      rw [ih (cur ++ [c]) hq, ← h.1, ← h.2]
      simp

theorem domainSegments_eq (s : Bytes) : domainSegments s = splitOn ch%'|' s := by
  obtain ⟨q, qs, hq⟩ := List.exists_cons_of_ne_nil (splitOn_ne_nil ch%'|' s)
  unfold domainSegments
  rw [domainSegmentsLoop_eq [] s hq, hq]; rfl

theorem domains_eq {f : Filter} {dl : Bytes} (h : f.domainList = some dl) :
    f.domains = positive dl := by
  simp only [Filter.domains, h, domainSegments_eq, positive]
  congr 1
  funext s
  rw [Bool.eq_iff_iff]; simp

theorem antiDomains_eq {f : Filter} {dl : Bytes} (h : f.domainList = some dl) :
    f.antiDomains = negative dl := by
  simp only [Filter.antiDomains, h, domainSegments_eq, negative]
  congr 2
  funext s
  rw [Bool.eq_iff_iff]; simp

/-- Covering names, peeling off the first label. -/
theorem covers_cons {pre p s : Bytes} (h : ch%'.' ∉ pre) :
    Covers s (pre ++ ch%'.' :: p) ↔ s = pre ++ ch%'.' :: p ∨ Covers s p := by
  unfold Covers SameSite
  constructor
  · rintro ⟨h1 | ⟨sub, h1⟩, h2⟩
    · exact .inl h1.symm
    · right
      refine ⟨?_, h2⟩
      have h1' : pre ++ ch%'.' :: p = sub ++ ch%'.' :: s := h1
      clear h1
      rw [List.append_eq_append_iff] at h1'
      rcases h1' with ⟨a, ha, hb⟩ | ⟨a, ha, hb⟩
      · cases a with
        | nil => simp at hb; exact .inl hb
        | cons x a =>
          simp at hb
          exact .inr ⟨a, hb.2⟩
      · cases a with
        | nil => simp at hb; exact .inl hb.symm
        | cons x a =>
          simp at hb
          exact absurd (by rw [ha, hb.1]; simp) h
  · rintro (rfl | ⟨h1 | ⟨sub, h1⟩, h2⟩)
    · exact ⟨.inl rfl, by simp⟩
    · exact ⟨.inr ⟨pre, by rw [h1]⟩, h2⟩
    · exact ⟨.inr ⟨pre ++ ch%'.' :: sub, by rw [h1]; simp⟩, h2⟩

theorem covers_length {s cd : Bytes} (h : Covers s cd) : s.length ≤ cd.length := by
  rcases h.1 with rfl | ⟨sub, rfl⟩ <;> simp; omega

theorem contextDomainLoop_spec (f : Filter) (pre p : Bytes) (hpre : ch%'.' ∉ pre) :
    match f.contextDomainLoop (pre ++ p) p with
    | some b => ∃ s, Covers s (pre ++ p) ∧ (s ∈ f.domains ∨ s ∈ f.antiDomains) ∧
        (b = true ↔ s ∈ f.domains) ∧
        ∀ s', Covers s' (pre ++ p) → (s' ∈ f.domains ∨ s' ∈ f.antiDomains) → s'.length ≤ s.length
    | none => ∀ s, Covers s (pre ++ p) → s ∉ f.domains ∧ s ∉ f.antiDomains := by
  induction p generalizing pre with
  | nil =>
    simp only [Filter.contextDomainLoop, List.append_nil]
    rintro s ⟨rfl | ⟨sub, rfl⟩, h2⟩
    · exact absurd h2 hpre
    · exact absurd (by simp) hpre
  | cons c p ih =>
    by_cases hc : c = ch%'.'
    · subst hc
      simp only [Filter.contextDomainLoop, ↓reduceIte]
      have hself : Covers (pre ++ ch%'.' :: p) (pre ++ ch%'.' :: p) := ⟨.inl rfl, by simp⟩
      by_cases h1 : f.containsDomain (pre ++ ch%'.' :: p) false = true
      · have h1' : pre ++ ch%'.' :: p ∈ f.domains := by
          simpa [Filter.containsDomain] using h1
        simp only [h1, ↓reduceIte]
        exact ⟨_, hself, .inl h1', by simpa using h1', fun s' hs' _ => covers_length hs'⟩
      · have h1' : pre ++ ch%'.' :: p ∉ f.domains := by
          simpa [Filter.containsDomain] using h1
        simp only [h1, Bool.false_eq_true, ↓reduceIte]
        by_cases h2 : f.containsDomain (pre ++ ch%'.' :: p) true = true
        · have h2' : pre ++ ch%'.' :: p ∈ f.antiDomains := by
            simpa [Filter.containsDomain] using h2
          simp only [h2, ↓reduceIte]
          exact ⟨_, hself, .inr h2', by simpa using h1', fun s' hs' _ => covers_length hs'⟩
        · have h2' : pre ++ ch%'.' :: p ∉ f.antiDomains := by
            simpa [Filter.containsDomain] using h2
          simp only [h2, Bool.false_eq_true, ↓reduceIte]
          have ih' := ih [] (by simp)
          simp only [List.nil_append] at ih'
          cases hl : f.contextDomainLoop p p with
          | none =>
            rw [hl] at ih'
            intro s hs
            rcases (covers_cons hpre).1 hs with rfl | hs
            · exact ⟨h1', h2'⟩
            · exact ih' s hs
          | some b =>
            rw [hl] at ih'
            obtain ⟨s, a1, a2, a3, a4⟩ := ih'
            refine ⟨s, (covers_cons hpre).2 (.inr a1), a2, a3, ?_⟩
            intro s' hs' hl'
            rcases (covers_cons hpre).1 hs' with rfl | hs'
            · rcases hl' with h | h
              · exact absurd h h1'
              · exact absurd h h2'
            · exact a4 s' hs' hl'
    · simp only [Filter.contextDomainLoop, hc, ↓reduceIte]
      have := ih (pre ++ [c]) (by simp [hpre]; exact fun e => hc e.symm)
      simpa using this

/-! #### option lists -/

/-- The options of a text, applied one after the other. -/
theorem parseOptionsLoop_eq (f : Filter) (cur s : Bytes) (hs : ∀ c ∈ s, c ≠ 0 ∧ c ≠ 13 ∧ c ≠ 10)
    {p : Bytes} {ps : List Bytes} (h : splitOn ch%',' s = p :: ps) :
    f.parseOptionsLoop cur s = ((cur ++ p) :: ps).foldl Filter.parseOption f := by
  induction s generalizing f cur p ps with
  | nil => simp [splitOn] at h; simp [Filter.parseOptionsLoop, h]
  | cons c s ih =>
    have hc := hs c (by simp)
    have hs' : ∀ c ∈ s, c ≠ 0 ∧ c ≠ 13 ∧ c ≠ 10 := fun c hc => hs c (by simp [hc])
    have he : (decide (c = 0) || isEndOfLine c) = false := by simp [isEndOfLine, hc]
    obtain ⟨q, qs, hq⟩ := List.exists_cons_of_ne_nil (splitOn_ne_nil ch%',' s)
    by_cases hcc : c = ch%','
    · subst hcc
      rw [splitOn_cons_sep] at h
      simp only [List.cons.injEq] at h
      simp only [Filter.parseOptionsLoop, he, Bool.false_eq_true, ↓reduceIte]
      rw [ih _ [] hs' hq, ← h.1, ← h.2, hq]
      simp
    · rw [splitOn_cons_of_ne hcc hq] at h
      simp only [List.cons.injEq] at h
      simp only [Filter.parseOptionsLoop, he, Bool.false_eq_true, ↓reduceIte, hcc]
      rw [ih f (cur ++ [c]) hs' hq, ← h.1, ← h.2]
      simp

theorem parseOptions_eq (f : Filter) (s : Bytes) (hs : ∀ c ∈ s, c ≠ 0 ∧ c ≠ 13 ∧ c ≠ 10) :
    f.parseOptions s =
      (splitOn ch%',' s).foldl Filter.parseOption { f with filterOption := 0, antiFilterOption := 0 } := by
  obtain ⟨q, qs, hq⟩ := List.exists_cons_of_ne_nil (splitOn_ne_nil ch%',' s)
  unfold Filter.parseOptions
  rw [parseOptionsLoop_eq _ [] s hs hq, hq]
  rfl

theorem strncmpEq_self_iff (o name : Bytes) : strncmpEq o name o.length = true ↔ o <+: name := by
  unfold strncmpEq
  rw [beq_iff_eq, List.take_length]
  constructor
  · intro h; rw [h]; exact List.take_prefix ..
  · rintro ⟨r, rfl⟩; simp

theorem strncmpEq_lit_iff {o lit : Bytes} (h : o.length ≥ lit.length) :
    strncmpEq o lit lit.length = true ↔ lit <+: o := by
  unfold strncmpEq
  rw [beq_iff_eq, List.take_length]
  constructor
  · intro h; rw [← h]; exact List.take_prefix ..
  · rintro ⟨r, rfl⟩; simp

theorem lit_prefix_iff (o lit : Bytes) :
    (decide (o.length ≥ lit.length) && strncmpEq o lit lit.length) = true ↔ lit <+: o := by
  rw [Bool.and_eq_true, decide_eq_true_iff]
  constructor
  · rintro ⟨h1, h2⟩; exact (strncmpEq_lit_iff h1).1 h2
  · intro h; exact ⟨h.length_le, (strncmpEq_lit_iff h.length_le).2 h⟩

theorem parseOption_plain {f : Filter} {o : Bytes} (ha : o.head? ≠ some ch%'~') :
    f.parseOption o =
      if bs%"domain=" <+: o then { f with domainList := some (o.drop 7) }
      else if bs%"tag=" <+: o then { f with tag := o.drop 4 }
      else { f with filterOption := f.filterOption ||| optionBit o } := by
  have ha' : (o.head? == some ch%'~') = false := by simpa using ha
  have h1 : (decide (o.length ≥ 7) && strncmpEq o bs%"domain=" 7) = true ↔ bs%"domain=" <+: o :=
    lit_prefix_iff o bs%"domain="
  have h2 : (decide (o.length ≥ 4) && strncmpEq o bs%"tag=" 4) = true ↔ bs%"tag=" <+: o :=
    lit_prefix_iff o bs%"tag="
  simp only [Filter.parseOption, ha', Bool.false_eq_true, ↓reduceIte, h1, h2]

theorem parseOption_anti (f : Filter) (o : Bytes) :
    f.parseOption (ch%'~' :: o) =
      if bs%"domain=" <+: o then { f with domainList := some (o.drop 7) }
      else if bs%"tag=" <+: o then { f with tag := o.drop 4 }
      else { f with antiFilterOption := f.antiFilterOption ||| optionBit o } := by
  have ha' : ((ch%'~' :: o).head? == some ch%'~') = true := by simp
  have h1 : (decide (o.length ≥ 7) && strncmpEq o bs%"domain=" 7) = true ↔ bs%"domain=" <+: o :=
    lit_prefix_iff o bs%"domain="
  have h2 : (decide (o.length ≥ 4) && strncmpEq o bs%"tag=" 4) = true ↔ bs%"tag=" <+: o :=
    lit_prefix_iff o bs%"tag="
  simp only [Filter.parseOption, ha', ↓reduceIte, h1, h2, List.drop_succ_cons, List.drop_zero]

theorem findOption_none_iff (o : Bytes) (t : List (Bytes × Mask)) :
    findOption o t = none ↔ ∀ e ∈ t, ¬ o <+: e.1 := by
  induction t with
  | nil => simp [findOption]
  | cons e t ih =>
    obtain ⟨n, m⟩ := e
    simp only [findOption]
    by_cases h : strncmpEq o n o.length = true
    · simp [h, (strncmpEq_self_iff o n).1 h]
    · have : ¬ o <+: n := fun e => h ((strncmpEq_self_iff o n).2 e)
      simp only [h, Bool.false_eq_true, ↓reduceIte, ih, List.mem_cons, forall_eq_or_imp, this,
        not_false_eq_true, true_and]

theorem domains_congr {f g : Filter} (h : f.domainList = g.domainList) :
    f.domains = g.domains ∧ f.antiDomains = g.antiDomains := by
  simp [Filter.domains, Filter.antiDomains, h]

theorem contextDomainLoop_congr {f g : Filter} (h : f.domainList = g.domainList) (s p : Bytes) :
    f.contextDomainLoop s p = g.contextDomainLoop s p := by
  induction p generalizing s with
  | nil => rfl
  | cons c p ih =>
    simp only [Filter.contextDomainLoop, Filter.containsDomain, (domains_congr h).1,
      (domains_congr h).2, ih]

theorem contextDomainMatchesFilter_congr {f g : Filter} (h : f.domainList = g.domainList)
    (cd : Bytes) : f.contextDomainMatchesFilter cd = g.contextDomainMatchesFilter cd := by
  simp only [Filter.contextDomainMatchesFilter, contextDomainLoop_congr h, Filter.getDomainCount,
    (domains_congr h).1, (domains_congr h).2]

theorem domainCheckFails_congr {f g : Filter} (h : f.domainList = g.domainList)
    (dom : Option Bytes) : f.domainCheckFails dom = g.domainCheckFails dom := by
  unfold Filter.domainCheckFails
  rw [h]
  cases g.domainList <;> cases dom <;> simp [contextDomainMatchesFilter_congr h]

/-- options only depend on three members -/
theorem matchesOptions_congr {f g : Filter} (h1 : f.filterOption = g.filterOption)
    (h2 : f.antiFilterOption = g.antiFilterOption) (h3 : f.domainList = g.domainList)
    (ctx : Mask) (dom : Option Bytes) : f.matchesOptions ctx dom = g.matchesOptions ctx dom := by
  have hcd := domainCheckFails_congr h3 dom
  unfold Filter.matchesOptions Filter.hasUnsupportedOptions
  rw [h1, h2, hcd]

theorem matchesPattern_congr {f g : Filter} (h1 : f.filterType = g.filterType) (h2 : f.host = g.host)
    (d : Ptr) (n : Nat) (url : Bytes) (bloom : Option (Bytes → Bool)) :
    f.matchesPattern d n url bloom = g.matchesPattern d n url bloom := by
  have h : f.hostAnchorOk url bloom = g.hostAnchorOk url bloom := by
    unfold Filter.hostAnchorOk; rw [h2]
  unfold Filter.matchesPattern
  rw [h1, h]

theorem matches_congr {f g : Filter} {ctx : Mask} {dom : Option Bytes}
    (ho : f.matchesOptions ctx dom = g.matchesOptions ctx dom)
    (h1 : f.filterType = g.filterType) (h2 : f.host = g.host) (h3 : f.data = g.data)
    (h4 : f.dataLen = g.dataLen) (url : Bytes) (bloom : Option (Bytes → Bool)) :
    f.matches url ctx dom bloom = g.matches url ctx dom bloom := by
  unfold Filter.matches
  rw [ho, h3, h4]
  simp only [matchesPattern_congr h1 h2]

end AdBlock
