import Verif.SpecRequest
import Verif.Props.ParseLine
import Verif.Props.Options
import Verif.Props.Url
/-
The meaning of the options of a rule text (`SpecRequest`) and what the parser and
`matchesOptions` make of them.
-/
namespace AdBlock
open Spec

theorem table_names : ∀ e ∈ optionTable, ∀ e' ∈ optionTable, e.1 = e'.1 → e = e' := by decide +kernel

theorem fullName_some {o n : Bytes} (h : fullName o = some n) : ∃ e ∈ optionTable, e.1 = n ∧ o <+: e.1 := by
  unfold fullName at h
  rw [Option.map_eq_some_iff] at h
  obtain ⟨e, h1, h2⟩ := h
  exact ⟨e, List.mem_of_find?_eq_some h1, h2, List.isPrefixOf_iff_prefix.1 (by simpa using List.find?_some h1)⟩

theorem fullName_plain {o n : Bytes} (h : fullName o = some n) : o.head? ≠ some ch%'~' ∧ HasBit o ∧ ¬ bs%"csp=" <+: o := by
  obtain ⟨e, he, -, hp⟩ := fullName_some h
  have key : ∀ e ∈ optionTable, ∀ k ∈ [bs%"~", bs%"domain=", bs%"tag=", bs%"csp="], ¬ k.isPrefixOf e.1 = true := by decide +kernel
  have no : ∀ k ∈ [bs%"~", bs%"domain=", bs%"tag=", bs%"csp="], ¬ k <+: o :=
    fun k hk h => key e he k hk (List.isPrefixOf_iff_prefix.2 (h.trans hp))
  refine ⟨fun hh => no bs%"~" (by simp) ?_, ⟨no _ (by simp), no _ (by simp)⟩, no _ (by simp)⟩
  obtain ⟨o', rfl⟩ : ∃ o', o = ch%'~' :: o' := by cases o <;> simp_all
  exact ⟨o', rfl⟩

theorem fullName_bit {o : Bytes} {e : Bytes × Mask} (he : e ∈ optionTable) (h : fullName o = some e.1) : optionBit o = e.2 := by
  rcases C41_meaning o with ⟨e', he', h1, h2⟩ | ⟨h1, -⟩
  · rw [h] at h1
    rw [h2, table_names e he e' he' (Option.some.inj h1)]
  · rw [h] at h1; cases h1

theorem opts_bit {r : RuleText} (hw : r.WellFormed) (m : Mask) : has r.opts.filterOption m = true ↔
    ∃ o ∈ r.entries, o.head? ≠ some ch%'~' ∧ HasBit o ∧ has (optionBit o) m = true := by
  unfold RuleText.opts RuleText.entries
  cases hro : r.options with
  | none => simp [has]
  | some s =>
    refine (C41_option_list {} s (fun c hc => ?_) m).1
    obtain ⟨h1, h2, h3⟩ := (hw.opts s hro).1 c hc
    exact ⟨h1, h3, h2⟩

theorem opts_antiBit {r : RuleText} (hw : r.WellFormed) (m : Mask) : has r.opts.antiFilterOption m = true ↔
    ∃ o, ch%'~' :: o ∈ r.entries ∧ HasBit o ∧ has (optionBit o) m = true := by
  unfold RuleText.opts RuleText.entries
  cases hro : r.options with
  | none => simp [has]
  | some s =>
    refine (C41_option_list {} s (fun c hc => ?_) m).2
    obtain ⟨h1, h2, h3⟩ := (hw.opts s hro).1 c hc
    exact ⟨h1, h3, h2⟩

/-- the bits of the rule -/
theorem opts_filterOption {r : RuleText} (hw : r.WellFormed) (hs : ∀ o ∈ r.entries, ¬ RuleText.Unsupported o) {m : Mask}
    (hm : has FORedirect m = false) :
    has r.opts.filterOption m = true ↔ ∃ e ∈ optionTable, r.Says e.1 ∧ has e.2 m = true := by
  rw [opts_bit hw]
  constructor
  · rintro ⟨o, ho, hp, hb, hh⟩
    rcases C41_meaning o with ⟨e, he, h1, h2⟩ | ⟨h1, ⟨h2, -⟩ | ⟨-, h2⟩ | ⟨-, h2, -⟩⟩
    · exact ⟨e, he, ⟨o, ho, h1⟩, h2 ▸ hh⟩
    · exact absurd (.inr (.inl h2)) (hs o ho)
    · rw [h2, hm] at hh; cases hh
    · refine absurd (.inr (.inr ⟨hp, ?_, h1⟩)) (hs o ho)
      intro k hk
      simp only [List.mem_cons, List.not_mem_nil, or_false] at hk
      rcases hk with rfl | rfl | rfl
      · exact hb.1
      · exact hb.2
      · exact h2
  · rintro ⟨e, he, ⟨o, ho, h⟩, hh⟩
    obtain ⟨h1, h2, -⟩ := fullName_plain h
    exact ⟨o, ho, h1, h2, by rw [fullName_bit he h]; exact hh⟩

theorem opts_antiFilterOption {r : RuleText} (hw : r.WellFormed) {m : Mask}
    (hm : has FOCSP m = false ∧ has FORedirect m = false ∧ has FOUnknown m = false) :
    has r.opts.antiFilterOption m = true ↔ ∃ e ∈ optionTable, r.Denies e.1 ∧ has e.2 m = true := by
  rw [opts_antiBit hw]
  constructor
  · rintro ⟨o, ho, hb, hh⟩
    rcases C41_meaning o with ⟨e, he, h1, h2⟩ | ⟨h1, ⟨-, h2⟩ | ⟨-, h2⟩ | ⟨-, -, h2⟩⟩
    · exact ⟨e, he, ⟨_, ho, rfl, h1⟩, h2 ▸ hh⟩
    · rw [h2, hm.1] at hh; cases hh
    · rw [h2, hm.2.1] at hh; cases hh
    · rw [h2, hm.2.2] at hh; cases hh
  · rintro ⟨e, he, ⟨o, ho, h, h'⟩, hh⟩
    obtain ⟨o', rfl⟩ : ∃ o', o = ch%'~' :: o' := by cases o <;> simp_all
    have h' : fullName o' = some e.1 := h'
    exact ⟨o', ho, (fullName_plain h').2.1, by rw [fullName_bit he h']; exact hh⟩

theorem unsupported_not_anti {o : Bytes} (h : RuleText.Unsupported o) : o.head? ≠ some ch%'~' ∧ HasBit o := by
  rcases h with ⟨n, -, h⟩ | ⟨d, rfl⟩ | ⟨h1, h2, -⟩
  · exact ⟨(fullName_plain h).1, (fullName_plain h).2.1⟩
  · unfold HasBit; simp
  · exact ⟨h1, h2 _ (by simp), h2 _ (by simp)⟩

theorem unsupported_table : ∀ e ∈ optionTable, (has e.2 FOUnsupportedSoSkipCheck = true ↔
      e.1 ∈ [bs%"popup", bs%"elemhide", bs%"generichide", bs%"genericblock", bs%"empty"]) ∧
    (e.1 ∈ [bs%"popup", bs%"elemhide", bs%"generichide", bs%"genericblock", bs%"empty"] →
      e.2 ∈ [FOPopup, FOCSP, FOElemHide, FOGenericHide, FOGenericBlock, FOEmpty, FOUnknown]) := by decide +kernel

/-- the bits of unsupported options -/
theorem unsupported_opts {r : RuleText} (hw : r.WellFormed) (h : ∃ o ∈ r.entries, RuleText.Unsupported o) :
    ∃ m ∈ [FOPopup, FOCSP, FOElemHide, FOGenericHide, FOGenericBlock, FOEmpty, FOUnknown], has r.opts.filterOption m = true := by
  obtain ⟨o, ho, hu⟩ := h
  obtain ⟨p1, p2⟩ := unsupported_not_anti hu
  have : optionBit o ∈ [FOPopup, FOCSP, FOElemHide, FOGenericHide, FOGenericBlock, FOEmpty, FOUnknown] := by
    rcases C41_meaning o with ⟨e, he, h1, h2⟩ | ⟨h1, ⟨-, h2⟩ | ⟨h2, -⟩ | ⟨-, -, h2⟩⟩
    · rcases hu with ⟨n, hn, h⟩ | h | ⟨-, -, h⟩
      · rw [h1] at h; cases h
        rw [h2]; exact (unsupported_table e he).2 hn
      · exact absurd h (fullName_plain h1).2.2
      · rw [h1] at h; cases h
    · rw [h2]; simp
    · rcases hu with ⟨n, hn, h⟩ | h | ⟨-, h, -⟩
      · rw [h1] at h; cases h
      · obtain ⟨d, rfl⟩ := h2; simp at h
      · exact absurd h2 (h _ (by simp))
    · rw [h2]; simp
  have self : ∀ m ∈ [FOPopup, FOCSP, FOElemHide, FOGenericHide, FOGenericBlock, FOEmpty, FOUnknown], has m m = true := by
    intro m hm
    simp only [List.mem_cons, List.not_mem_nil, or_false] at hm
    rcases hm with rfl | rfl | rfl | rfl | rfl | rfl | rfl <;> rfl
  exact ⟨_, this, (opts_bit hw _).2 ⟨o, ho, p1, p2, self _ this⟩⟩

/-- a rule with an unsupported option is not applied -/
theorem unsupported_matches {r : RuleText} (hw : r.WellFormed) (h : ∃ o ∈ r.entries, RuleText.Unsupported o) (pr : Bool)
    (url : Bytes) (ctx : Mask) (dom : Option Bytes) (bloom : Option (Bytes → Bool)) :
    (r.filter pr).matches url ctx dom bloom = .ok false :=
  C14_unsupported_never_matches (r.filter pr) (unsupported_opts hw h) url ctx dom bloom

theorem parseOption_values (f : Filter) (o : Bytes) :
    (f.parseOption o).domainList = (if (bs%"domain=").isPrefixOf (RuleText.unsigned o) then some ((RuleText.unsigned o).drop 7) else f.domainList) ∧
    (f.parseOption o).tag = (if (bs%"tag=").isPrefixOf (RuleText.unsigned o) then (RuleText.unsigned o).drop 4 else f.tag) := by
  have key : ∀ (b : Bytes) (g : Filter), g.domainList = f.domainList → g.tag = f.tag → f.parseOption o =
      (if bs%"domain=" <+: b then { f with domainList := some (b.drop 7) }
        else if bs%"tag=" <+: b then { f with tag := b.drop 4 } else g) →
      (f.parseOption o).domainList = (if (bs%"domain=").isPrefixOf b then some (b.drop 7) else f.domainList) ∧
      (f.parseOption o).tag = (if (bs%"tag=").isPrefixOf b then b.drop 4 else f.tag) := by
    intro b g g1 g2 h
    rw [h]
    simp only [List.isPrefixOf_iff_prefix]
    by_cases h1 : bs%"domain=" <+: b
    · have h2 : ¬ bs%"tag=" <+: b := by obtain ⟨d, rfl⟩ := h1; simp
      rw [if_pos h1, if_pos h1, if_neg h2]
      exact ⟨rfl, rfl⟩
    · rw [if_neg h1, if_neg h1]
      by_cases h2 : bs%"tag=" <+: b
      · rw [if_pos h2, if_pos h2]; exact ⟨rfl, rfl⟩
      · rw [if_neg h2, if_neg h2]; exact ⟨g1, g2⟩
  by_cases ha : o.head? = some ch%'~'
  · obtain ⟨o', rfl⟩ : ∃ o', o = ch%'~' :: o' := by cases o <;> simp_all
    exact key o' { f with antiFilterOption := f.antiFilterOption ||| optionBit o' } rfl rfl (parseOption_anti ..)
  · have : RuleText.unsigned o = o := if_neg ha
    rw [this]
    exact key o { f with filterOption := f.filterOption ||| optionBit o } rfl rfl (parseOption_plain ha)

theorem foldl_values (l : List Bytes) (f : Filter) :
    (l.foldl Filter.parseOption f).domainList =
      ((l.filterMap fun o => if (bs%"domain=").isPrefixOf (RuleText.unsigned o) then some ((RuleText.unsigned o).drop 7) else none).getLast?).or f.domainList ∧
    (l.foldl Filter.parseOption f).tag =
      ((l.filterMap fun o => if (bs%"tag=").isPrefixOf (RuleText.unsigned o) then some ((RuleText.unsigned o).drop 4) else none).getLast?).getD f.tag := by
  induction l generalizing f with
  | nil => exact ⟨rfl, rfl⟩
  | cons o l ih =>
    obtain ⟨i1, i2⟩ := ih (f.parseOption o)
    obtain ⟨v1, v2⟩ := parseOption_values f o
    rw [List.foldl_cons, i1, i2, v1, v2, List.filterMap_cons, List.filterMap_cons]
    constructor
    · cases (bs%"domain=").isPrefixOf (RuleText.unsigned o) with
      | false => rfl
      | true =>
        simp only [↓reduceIte, List.getLast?_cons]
        cases (l.filterMap fun o => if (bs%"domain=").isPrefixOf (RuleText.unsigned o) then some ((RuleText.unsigned o).drop 7) else none).getLast? <;> rfl
    · cases (bs%"tag=").isPrefixOf (RuleText.unsigned o) with
      | false => rfl
      | true =>
        simp only [↓reduceIte, List.getLast?_cons]
        cases (l.filterMap fun o => if (bs%"tag=").isPrefixOf (RuleText.unsigned o) then some ((RuleText.unsigned o).drop 4) else none).getLast? <;> rfl

theorem opts_values {r : RuleText} (hw : r.WellFormed) :
    r.opts.domainList = r.value bs%"domain=" ∧ r.opts.tag = (r.value bs%"tag=").getD [] := by
  unfold RuleText.opts RuleText.value RuleText.entries
  cases hro : r.options with
  | none => exact ⟨rfl, rfl⟩
  | some s =>
    have hs : ∀ c ∈ s, c ≠ 0 ∧ c ≠ 13 ∧ c ≠ 10 := fun c hc =>
      have h := (hw.opts s hro).1 c hc
      ⟨h.1, h.2.2, h.2.1⟩
    simp only
    rw [parseOptions_eq _ s hs]
    obtain ⟨h1, h2⟩ := foldl_values (splitOn ch%',' s) {}
    refine ⟨h1.trans ?_, h2⟩
    exact Option.or_none

theorem opts_domainList {r : RuleText} (hw : r.WellFormed) : r.opts.domainList = r.value bs%"domain=" := (opts_values hw).1

theorem opts_tag {r : RuleText} (hw : r.WellFormed) : r.opts.tag = (r.value bs%"tag=").getD [] := (opts_values hw).2

/-- the `domain=` list, by C11 -/
theorem domainAdmitted_iff {f : Filter} {dl : Bytes} (h : f.domainList = some dl) (d : Bytes) :
    f.contextDomainMatchesFilter d = true ↔ DomainAdmitted dl d := by
  obtain ⟨h1, h2⟩ := C11_most_specific_domain_decides f dl h d
  by_cases hl : ∃ s, Covers s d ∧ (s ∈ positive dl ∨ s ∈ negative dl)
  · -- the longest one
    have hmax : ∃ s, (Covers s d ∧ (s ∈ positive dl ∨ s ∈ negative dl)) ∧
        ∀ s', Covers s' d → (s' ∈ positive dl ∨ s' ∈ negative dl) → s'.length ≤ s.length := by
      apply Classical.byContradiction
      intro hn
      have grow : ∀ n, ∃ s, (Covers s d ∧ (s ∈ positive dl ∨ s ∈ negative dl)) ∧ n ≤ s.length := by
        intro n
        induction n with
        | zero => obtain ⟨s, hs⟩ := hl; exact ⟨s, hs, Nat.zero_le _⟩
        | succ n ih =>
          obtain ⟨s, hs, hn'⟩ := ih
          apply Classical.byContradiction
          intro hc
          refine hn ⟨s, hs, fun s' h3 h4 => ?_⟩
          apply Classical.byContradiction
          intro hlt
          exact hc ⟨s', ⟨h3, h4⟩, by omega⟩
      obtain ⟨s, ⟨h3, -⟩, h4⟩ := grow (d.length + 1)
      have := covers_length h3
      omega
    obtain ⟨s, ⟨hc, hs⟩, hm⟩ := hmax
    rw [h1 s hc hs hm]
    constructor
    · intro hp
      exact .inl ⟨s, hp, hc, fun s' hn hc' => hm s' hc' (.inr hn)⟩
    · rintro (⟨s', hp, hc', hn⟩ | ⟨hp, hn⟩)
      · rcases hs with hs | hs
        · exact hs
        · have e1 := hn s hs hc
          have e2 := hm s' hc' (.inl hp)
          rw [covers_eq_of_length hc hc' (by omega)]
          exact hp
      · rcases hs with hs | hs
        · exact hs
        · exact absurd hc (hn s hs)
  · have hnone : ∀ s, Covers s d → s ∉ positive dl ∧ s ∉ negative dl := by
      intro s hc
      exact ⟨fun hp => hl ⟨s, hc, .inl hp⟩, fun hp => hl ⟨s, hc, .inr hp⟩⟩
    rw [h2 hnone]
    constructor
    · exact fun hp => .inr ⟨hp, fun s hs hc => (hnone s hc).2 hs⟩
    · rintro (⟨s, hp, hc, -⟩ | ⟨hp, -⟩)
      · exact absurd hp (hnone s hc).1
      · exact hp

/-! ### the options of a rule and a request -/

theorem types_nil (r : RuleText) : r.types = [] ↔ ∀ t ∈ typeTable, ¬ r.Says t.1 := by
  unfold RuleText.types; simp [List.filter_eq_nil_iff]

theorem notTypes_nil (r : RuleText) : r.notTypes = [] ↔ ∀ t ∈ typeTable, ¬ r.Denies t.1 := by
  unfold RuleText.notTypes; simp [List.filter_eq_nil_iff]

theorem mem_types (r : RuleText) (t : Bytes × Mask) : t ∈ r.types ↔ t ∈ typeTable ∧ r.Says t.1 := by
  unfold RuleText.types; simp

theorem mem_notTypes (r : RuleText) (t : Bytes × Mask) : t ∈ r.notTypes ↔ t ∈ typeTable ∧ r.Denies t.1 := by
  unfold RuleText.notTypes; simp

theorem no_options {r : RuleText} (h : r.options = none) : r.types = [] ∧ r.notTypes = [] ∧ ¬ r.TakenForType ∧
    (∀ n, ¬ r.Says n) ∧ ∀ n, ¬ r.Denies n := by
  have he : r.entries = [] := by unfold RuleText.entries; rw [h]
  have h1 : ∀ n, ¬ r.Says n := fun n ⟨o, ho, _⟩ => by rw [he] at ho; cases ho
  have h2 : ∀ n, ¬ r.Denies n := fun n ⟨o, ho, _⟩ => by rw [he] at ho; cases ho
  exact ⟨(types_nil r).2 fun t _ => h1 _, (notTypes_nil r).2 fun t _ => h2 _, fun h => h.elim (h1 _) (h1 _), h1, h2⟩

theorem type_party_bit : ∀ t ∈ typeTable, has t.2 (FOThirdParty ||| FONotThirdParty) = false := by decide +kernel

/-- facts about the bits of the options -/
theorem table_bits : ∀ e ∈ optionTable, (has e.2 FOResourcesOnly = true ↔ e ∈ typeTable) ∧
    (has e.2 (~~~BehavioralFilterOnly) = true ↔ e ∈ typeTable ∨ e.1 = bs%"collapse" ∨ e.1 = bs%"donottrack" ∨
      e.1 ∈ [bs%"popup", bs%"elemhide", bs%"generichide", bs%"genericblock", bs%"empty"]) ∧
    (has e.2 FOThirdParty = true ↔ e.1 = bs%"third-party") ∧ (has e.2 FODocument = true ↔ e.1 = bs%"document") := by decide +kernel

theorem types_in_table : ∀ t ∈ typeTable, t ∈ optionTable := by decide +kernel

theorem table_meets {e u : Bytes × Mask} (he : e ∈ optionTable) (hu : u ∈ typeTable) {p : Mask}
    (hp : p ∈ [0#32, FOThirdParty, FONotThirdParty]) : has e.2 (FOResourcesOnly &&& (u.2 ||| p)) = true ↔ e = u := by
  have h : (optionTable.all fun t => typeTable.all fun u => [0#32, FOThirdParty, FONotThirdParty].all fun p =>
      has t.2 (FOResourcesOnly &&& (u.2 ||| p)) == (t.1 == u.1 && t.2 == u.2)) = true := by decide +kernel
  have h := (List.all_eq_true.1 ((List.all_eq_true.1 ((List.all_eq_true.1 h) e he)) u hu)) p hp
  rw [beq_iff_eq] at h
  rw [h, Bool.and_eq_true, beq_iff_eq, beq_iff_eq, Prod.ext_iff]

theorem value_misses {u : Bytes × Mask} (hu : u ∈ typeTable) {p : Mask} (hp : p ∈ [0#32, FOThirdParty, FONotThirdParty]) :
    (has FOCSP (FOResourcesOnly &&& (u.2 ||| p)) = false ∧ has FORedirect (FOResourcesOnly &&& (u.2 ||| p)) = false ∧
      has FOUnknown (FOResourcesOnly &&& (u.2 ||| p)) = false) ∧
    (has (u.2 ||| p) FODocument = true ↔ u.1 = bs%"document") ∧ u.2 ||| p ≠ 0#32 := by
  have h : (typeTable.all fun u => [0#32, FOThirdParty, FONotThirdParty].all fun p =>
      !has FOCSP (FOResourcesOnly &&& (u.2 ||| p)) && !has FORedirect (FOResourcesOnly &&& (u.2 ||| p)) &&
      !has FOUnknown (FOResourcesOnly &&& (u.2 ||| p)) &&
      (has (u.2 ||| p) FODocument == (u.1 == bs%"document")) && (u.2 ||| p != 0#32)) = true := by decide +kernel
  have h := (List.all_eq_true.1 ((List.all_eq_true.1 h) u hu)) p hp
  simp only [Bool.and_eq_true, Bool.not_eq_true', beq_iff_eq, bne_iff_ne] at h
  obtain ⟨⟨⟨⟨h1, h2⟩, h2'⟩, h3⟩, h4⟩ := h
  exact ⟨⟨h1, h2, h2'⟩, by rw [h3, beq_iff_eq], h4⟩

theorem party_bits {p : Mask} (hp : p ∈ [0#32, FOThirdParty, FONotThirdParty]) :
    FOResourcesOnly &&& p = 0#32 ∧ has p FODocument = false ∧ (has p FOThirdParty = true ↔ p = FOThirdParty) ∧
    (has p FONotThirdParty = true ↔ p = FONotThirdParty) ∧ (has p (FOThirdParty ||| FONotThirdParty) = true ↔ p ≠ 0#32) := by
  have h : ([0#32, FOThirdParty, FONotThirdParty].all fun p =>
      (FOResourcesOnly &&& p == 0#32) && !has p FODocument &&
      (has p FOThirdParty == (p == FOThirdParty)) && (has p FONotThirdParty == (p == FONotThirdParty)) &&
      (has p (FOThirdParty ||| FONotThirdParty) == (p != 0#32))) = true := by decide +kernel
  have h := (List.all_eq_true.1 h) p hp
  simp only [Bool.and_eq_true, Bool.not_eq_true', beq_iff_eq] at h
  obtain ⟨⟨⟨⟨h1, h2⟩, h4⟩, h5⟩, h6⟩ := h
  exact ⟨h1, h2, by rw [h4, beq_iff_eq], by rw [h5, beq_iff_eq], by rw [h6, bne_iff_ne]⟩

theorem domainCheck_iff (f : Filter) (d : Bytes) :
    ¬ (f.domainCheckFails (some d) = true) ↔ ∀ dl, f.domainList = some dl → DomainAdmitted dl d := by
  unfold Filter.domainCheckFails
  cases hl : f.domainList with
  | none => simp
  | some dl =>
    simp only [Bool.not_eq_true', Bool.not_eq_false, Option.some.injEq, forall_eq']
    exact domainAdmitted_iff hl d

section
variable {r : RuleText} (hw : r.WellFormed) (ho : ∀ o ∈ r.entries, ¬ RuleText.Unsupported o)
include hw ho

theorem opts_supported : has r.opts.filterOption FOUnsupportedSoSkipCheck = false := by
  rw [← Bool.not_eq_true, opts_filterOption hw ho (by decide)]
  rintro ⟨e, he, ⟨o, hm, hn⟩, h⟩
  exact ho o hm (.inl ⟨e.1, (unsupported_table e he).1.1 h, hn⟩)

theorem opts_resources : (has r.opts.filterOption FOResourcesOnly = true ↔ r.types ≠ []) ∧
    (has r.opts.filterOption (~~~BehavioralFilterOnly) = true ↔ r.types ≠ [] ∨ r.TakenForType) ∧
    (has r.opts.antiFilterOption FOResourcesOnly = true ↔ r.notTypes ≠ []) ∧
    (r.notTypes ≠ [] → has r.opts.antiFilterOption (~~~BehavioralFilterOnly) = true) := by
  have h3 : has r.opts.antiFilterOption FOResourcesOnly = true ↔ r.notTypes ≠ [] := by
    rw [opts_antiFilterOption hw (by decide)]
    simp only [ne_eq, notTypes_nil, Classical.not_forall, Classical.not_not]
    constructor
    · rintro ⟨e, he, h1, h2⟩; exact ⟨e, (table_bits e he).1.1 h2, h1⟩
    · rintro ⟨t, ht, h1⟩; exact ⟨t, types_in_table t ht, h1, (table_bits t (types_in_table t ht)).1.2 ht⟩
  refine ⟨?_, ?_, h3, fun h => has_mono (by decide) (h3.2 h)⟩
  · rw [opts_filterOption hw ho (by decide)]
    simp only [ne_eq, types_nil, Classical.not_forall, Classical.not_not]
    constructor
    · rintro ⟨e, he, h1, h2⟩; exact ⟨e, (table_bits e he).1.1 h2, h1⟩
    · rintro ⟨t, ht, h1⟩; exact ⟨t, types_in_table t ht, h1, (table_bits t (types_in_table t ht)).1.2 ht⟩
  · rw [opts_filterOption hw ho (by decide)]
    simp only [ne_eq, types_nil, Classical.not_forall, Classical.not_not]
    constructor
    · rintro ⟨e, he, h1, h2⟩
      rcases (table_bits e he).2.1.1 h2 with h | h | h | h
      · exact .inl ⟨e, h, h1⟩
      · exact .inr (.inl (h ▸ h1))
      · exact .inr (.inr (h ▸ h1))
      · obtain ⟨o, hm, hn⟩ := h1
        exact absurd (.inl ⟨e.1, h, hn⟩) (ho o hm)
    · rintro (⟨t, ht, h1⟩ | h | h)
      · exact ⟨t, types_in_table t ht, h1, (table_bits t (types_in_table t ht)).2.1.2 (.inl ht)⟩
      · exact ⟨(bs%"collapse", FOCollapse), by simp [optionTable], h, by decide⟩
      · exact ⟨(bs%"donottrack", FODoNotTrack), by simp [optionTable], h, by decide⟩

theorem opts_meets {u : Bytes × Mask} (hu : u ∈ typeTable) {p : Mask} (hp : p ∈ [0#32, FOThirdParty, FONotThirdParty]) :
    (has (r.opts.filterOption &&& FOResourcesOnly) (u.2 ||| p) = true ↔ u ∈ r.types) ∧
    (has (r.opts.antiFilterOption &&& FOResourcesOnly) (u.2 ||| p) = true ↔ u ∈ r.notTypes) := by
  obtain ⟨hm, -⟩ := value_misses hu hp
  rw [has_and_assoc, has_and_assoc, opts_filterOption hw ho hm.2.1, opts_antiFilterOption hw hm, mem_types, mem_notTypes]
  constructor
  · constructor
    · rintro ⟨e, he, h1, h2⟩
      rw [table_meets he hu hp] at h2; subst h2; exact ⟨hu, h1⟩
    · rintro ⟨h1, h2⟩
      exact ⟨u, types_in_table u hu, h2, (table_meets (types_in_table u hu) hu hp).2 rfl⟩
  · constructor
    · rintro ⟨e, he, h1, h2⟩
      rw [table_meets he hu hp] at h2; subst h2; exact ⟨hu, h1⟩
    · rintro ⟨h1, h2⟩
      exact ⟨u, types_in_table u hu, h2, (table_meets (types_in_table u hu) hu hp).2 rfl⟩

omit hw ho in
theorem opts_misses {p : Mask} (hp : p ∈ [0#32, FOThirdParty, FONotThirdParty]) :
    has (r.opts.filterOption &&& FOResourcesOnly) p = false ∧ has (r.opts.antiFilterOption &&& FOResourcesOnly) p = false := by
  rw [has_and_assoc, has_and_assoc, (party_bits hp).1]
  simp [has]

theorem opts_party : (has r.opts.filterOption FOThirdParty = true ↔ r.Says bs%"third-party") ∧
    (has r.opts.antiFilterOption FOThirdParty = true ↔ r.Denies bs%"third-party") := by
  rw [opts_filterOption hw ho (by decide), opts_antiFilterOption hw (by decide)]
  have hm : (bs%"third-party", FOThirdParty) ∈ optionTable := by simp [optionTable]
  constructor
  · constructor
    · rintro ⟨e, he, h1, h2⟩; rw [← (table_bits e he).2.2.1.1 h2]; exact h1
    · exact fun h => ⟨_, hm, h, by decide⟩
  · constructor
    · rintro ⟨e, he, h1, h2⟩; rw [← (table_bits e he).2.2.1.1 h2]; exact h1
    · exact fun h => ⟨_, hm, h, by decide⟩

theorem opts_document : has r.opts.filterOption FODocument = true ↔ r.Says bs%"document" := by
  rw [opts_filterOption hw ho (by decide)]
  constructor
  · rintro ⟨e, he, h1, h2⟩; rw [← (table_bits e he).2.2.2.1 h2]; exact h1
  · exact fun h => ⟨(bs%"document", FODocument), by simp [optionTable], h, by decide⟩

/-- The conditions on the type. -/
theorem typeAllowed_iff {q : Request} (hq : q.Web) {p : Mask} (hp : p ∈ [0#32, FOThirdParty, FONotThirdParty])
    (hd : q.domain = none ↔ p = 0#32) :
    (¬ (has r.opts.filterOption FODocument = false ∧ has (q.context ||| p) FODocument = true) ∧
     ¬ (q.context ||| p ≠ 0#32 ∧ has r.opts.filterOption (~~~BehavioralFilterOnly) = true ∧ has (r.opts.filterOption &&& FOResourcesOnly) (q.context ||| p) = false) ∧
     ¬ (q.context ||| p ≠ 0#32 ∧ has r.opts.antiFilterOption (~~~BehavioralFilterOnly) = true ∧ has (r.opts.antiFilterOption &&& FOResourcesOnly) (q.context ||| p) = true) ∧
     ¬ (q.context ||| p = 0#32 ∧ has r.opts.filterOption FOResourcesOnly = true) ∧
     ¬ (q.context ||| p = 0#32 ∧ has r.opts.antiFilterOption FOResourcesOnly = true)) ↔ r.TypeAllowed q := by
  obtain ⟨r1, r2, r3, r4⟩ := opts_resources hw ho
  have hdoc := opts_document hw ho
  unfold RuleText.TypeAllowed
  cases ht : q.type with
  | none =>
    have hc : q.context = 0#32 := by unfold Request.context; rw [ht]; rfl
    obtain ⟨m1, m2⟩ := opts_misses (r := r) hp
    have z2 : 0#32 ||| p = p := BitVec.zero_or
    rw [hc, z2, (party_bits hp).2.1, r1, r2, r3, m1, m2]
    simp only [Bool.false_eq_true, and_false, not_false_eq_true, true_and, and_true, ne_eq, hd]
    by_cases h0 : p = 0#32
    · simp [h0]
    · simp [h0]
  | some t =>
    have hm := hq.type t ht
    have hc : q.context = t.2 := by unfold Request.context; rw [ht]
    obtain ⟨m1, m2⟩ := opts_meets hw ho hm hp
    obtain ⟨-, z1, z2⟩ := value_misses hm hp
    have hdoc' : t.1 = bs%"document" → (r.Says bs%"document" ↔ t ∈ r.types) := by
      intro e
      rw [mem_types, e]
      exact ⟨fun h => ⟨hm, h⟩, fun h => h.2⟩
    rw [hc, z1, r2, m2, ← Bool.not_eq_true, ← Bool.not_eq_true, m1, hdoc]
    simp only [ne_eq, z2, not_false_eq_true, true_and, false_and, and_true]
    constructor
    · rintro ⟨h1, h2, h3⟩
      refine ⟨?_, ?_, fun e => ?_⟩
      · by_cases h : t ∈ r.types
        · exact .inl h
        · right
          refine ⟨Classical.byContradiction fun h' => h2 ⟨.inl h', h⟩, fun h' => h2 ⟨.inr h', h⟩⟩
      · intro h
        refine h3 ⟨r4 ?_, h⟩
        intro e; rw [e] at h; cases h
      · rw [← hdoc' e]
        apply Classical.byContradiction
        intro h'
        exact h1 ⟨h', e⟩
    · rintro ⟨h1, h2, h3⟩
      refine ⟨?_, ?_, fun h => h2 h.2⟩
      · rintro ⟨a, e⟩
        exact a ((hdoc' e).2 (h3 e))
      · rintro ⟨a, b⟩
        rcases h1 with h1 | ⟨h1, h1'⟩
        · exact b h1
        · rcases a with a | a
          · exact a h1
          · exact h1' a

/-- The options of the rule and the request. -/
theorem matchesOptions_iff (pr : Bool) {q : Request} (hq : q.Web) :
    (r.filter pr).matchesOptions (resolveContext q.url q.context q.domain) q.domain = true ↔ r.TypeAllowed q ∧ r.PageAllowed q := by
  have hhost : getUrlHost q.url = q.host := by
    have := C05_host_of_url q.scheme bs%"//" q.host q.rest ?_ (by decide) hq.host.1 hq.host.2 hq.rest
    · rw [← this]
      unfold Request.url
      congr 1
      simp [List.append_assoc]
    · intro hm
      have h2 := List.mem_map_of_mem (f := lower) hm
      have h3 : ∀ s ∈ [bs%"http", bs%"https", bs%"ws", bs%"wss"], lower ch%':' ∉ s := by decide
      exact h3 _ hq.scheme h2
  have hnp : q.context &&& (FOThirdParty ||| FONotThirdParty) = 0 := by
    unfold Request.context
    cases ht : q.type with
    | none => rfl
    | some t =>
      have := type_party_bit t (hq.type t ht)
      rw [← and_eq_zero_iff] at this
      exact this
  -- the context is the type and a party
  have hctx : ∃ p ∈ [0#32, FOThirdParty, FONotThirdParty], resolveContext q.url q.context q.domain = q.context ||| p ∧
      (q.domain = none ↔ p = 0#32) ∧ (∀ d, q.domain = some d → (p = FONotThirdParty ↔ SameSite d q.host) ∧ (p = FOThirdParty ↔ ¬ SameSite d q.host)) := by
    cases hd : q.domain with
    | none => exact ⟨0#32, by simp, by simp [resolveContext], by simp, by simp⟩
    | some d =>
      obtain ⟨h1, h2⟩ := C07_party_classification q.url q.context d hnp
      rw [hhost] at h1 h2
      have n1 : FONotThirdParty ≠ 0#32 := by decide
      have n2 : FOThirdParty ≠ 0#32 := by decide
      have n3 : FOThirdParty ≠ FONotThirdParty := by decide
      by_cases hs : SameSite d q.host
      · refine ⟨FONotThirdParty, by simp, h1 hs, by simp [n1], ?_⟩
        rintro d' ⟨⟩
        simp [hs, n3.symm]
      · refine ⟨FOThirdParty, by simp, h2 hs, by simp [n2], ?_⟩
        rintro d' ⟨⟩
        simp [hs, n3]
  obtain ⟨p, hp, hc, hd0, hd1⟩ := hctx
  have hparty : has (q.context ||| p) FOThirdParty = has p FOThirdParty ∧ has (q.context ||| p) FONotThirdParty = has p FONotThirdParty := by
    rw [has_or_left, has_or_left]
    rw [show (0 : Mask) = 0#32 from rfl, and_eq_zero_iff, has_or_right, Bool.or_eq_false_iff] at hnp
    rw [hnp.1, hnp.2]; simp
  have e1 : (r.filter pr).filterOption = r.opts.filterOption := rfl
  have e2 : (r.filter pr).antiFilterOption = r.opts.antiFilterOption := rfl
  have hsup : (r.filter pr).hasUnsupportedOptions = false := opts_supported hw ho
  obtain ⟨p1, p2⟩ := opts_party hw ho
  have hpage : (¬ ((r.filter pr).domainCheckFails q.domain = true) ∧
      ¬ (has p (FOThirdParty ||| FONotThirdParty) = true ∧ has r.opts.filterOption FOThirdParty = true ∧ has p FONotThirdParty = true) ∧
      ¬ (has p (FOThirdParty ||| FONotThirdParty) = true ∧ has r.opts.antiFilterOption FOThirdParty = true ∧ has p FOThirdParty = true)) ↔ r.PageAllowed q := by
    have hdl : (r.filter pr).domainList = r.value bs%"domain=" := opts_domainList hw
    obtain ⟨-, -, b1, b2, b3⟩ := party_bits hp
    rw [p1, p2, b1, b2, b3]
    unfold RuleText.PageAllowed
    cases hd : q.domain with
    | none =>
      have := hd0.1 hd
      simp [this, Filter.domainCheckFails]
    | some d =>
      obtain ⟨s1, s2⟩ := hd1 d hd
      have hne : p ≠ 0#32 := by
        intro e; rw [← hd0, hd] at e; cases e
      rw [s1, s2]
      rw [domainCheck_iff, hdl]
      simp only [ne_eq, hne, not_false_eq_true, true_and, Option.some.injEq, forall_eq']
      constructor
      · rintro ⟨h1, h2, h3⟩
        refine ⟨fun h h' => h2 ⟨h, h'⟩, fun h => ?_, h1⟩
        apply Classical.byContradiction
        intro h'
        exact h3 ⟨h, h'⟩
      · rintro ⟨h1, h2, h3⟩
        exact ⟨h3, fun ⟨h, h'⟩ => h1 h h', fun ⟨h, h'⟩ => h' (h2 h)⟩
  have hps : has (q.context ||| p) (FOThirdParty ||| FONotThirdParty) = has p (FOThirdParty ||| FONotThirdParty) := by
    rw [has_or_right, hparty.1, hparty.2, has_or_right]
  rw [← typeAllowed_iff hw ho hq hp hd0, ← hpage, hc]
  unfold Filter.matchesOptions
  rw [hsup, e1, e2, hps, hparty.1, hparty.2]
  generalize (r.filter pr).domainCheckFails q.domain = DC
  generalize has r.opts.filterOption FODocument = A1
  generalize has (q.context ||| p) FODocument = A2
  generalize has (r.opts.filterOption &&& FOResourcesOnly) (q.context ||| p) = A3
  generalize has (r.opts.antiFilterOption &&& FOResourcesOnly) (q.context ||| p) = A4
  have f1 : (r.opts.filterOption &&& ~~~BehavioralFilterOnly != 0) = has r.opts.filterOption (~~~BehavioralFilterOnly) := rfl
  have f2 : (r.opts.antiFilterOption &&& ~~~BehavioralFilterOnly != 0) = has r.opts.antiFilterOption (~~~BehavioralFilterOnly) := rfl
  rw [f1, f2]
  generalize has r.opts.filterOption (~~~BehavioralFilterOnly) = A5
  generalize has r.opts.antiFilterOption (~~~BehavioralFilterOnly) = A6
  generalize has r.opts.filterOption FOResourcesOnly = A7
  generalize has r.opts.antiFilterOption FOResourcesOnly = A8
  generalize has r.opts.filterOption FOThirdParty = A9
  generalize has r.opts.antiFilterOption FOThirdParty = A10
  generalize has p (FOThirdParty ||| FONotThirdParty) = A11
  generalize has p FOThirdParty = A12
  generalize has p FONotThirdParty = A13
  have chain : ∀ (a X : Bool), ((if a = true then false else X) = true) ↔ (¬ a = true ∧ X = true) := by
    intro a X; cases a <;> simp
  rw [chain, chain, chain, chain, chain, chain, chain, chain, chain]
  simp only [Bool.and_eq_true, Bool.not_eq_true', bne_iff_ne, beq_iff_eq, and_assoc, show (0 : Mask) = 0#32 from rfl,
    Bool.false_eq_true, not_false_eq_true, true_and, and_true, ne_eq]

end

end AdBlock
