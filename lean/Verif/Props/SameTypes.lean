import Verif.SpecSameTypes
import Verif.Props.Locality
/-
Rules for the same types, in whichever way they say so.
-/
namespace AdBlock
open Spec

theorem not_isType_of_fullName {o n : Bytes} (hn : n ∉ typeTable.map Prod.fst) (h : fullName o = some n) : ¬ IsType o := by
  rintro ⟨x, hx, h'⟩
  rw [h] at h'
  exact hn (Option.some.inj h' ▸ List.mem_map.2 ⟨x, hx, rfl⟩)

theorem not_isType_of_unsupported {o : Bytes} (h : RuleText.Unsupported o) : ¬ IsType (RuleText.unsigned o) := by
  rcases h with ⟨n, hn, h⟩ | h | ⟨h1, -, h3⟩
  · rw [unsigned_of_fullName h]
    refine not_isType_of_fullName ?_ h
    clear h
    revert n
    decide +kernel
  · have hu : RuleText.unsigned o = o := by
      obtain ⟨t, rfl⟩ := h
      rfl
    rw [hu]
    rintro ⟨x, -, h'⟩
    rw [fullName_of_prefix (by simp) h] at h'
    cases h'
  · have hu : RuleText.unsigned o = o := by
      unfold RuleText.unsigned
      rw [if_neg h1]
    rw [hu]
    rintro ⟨x, -, h'⟩
    rw [h3] at h'
    cases h'

section
variable {r r' : RuleText} (h : SameUpToTypes r r')
include h

theorem types_exists {P : Bytes → Prop} (hP : ∀ o, P o → ¬ IsType (RuleText.unsigned o)) : (∃ o ∈ r'.entries, P o) ↔ ∃ o ∈ r.entries, P o := by
  constructor
  · rintro ⟨o, h1, h2⟩; exact ⟨o, (h.options o (hP o h2)).1 h1, h2⟩
  · rintro ⟨o, h1, h2⟩; exact ⟨o, (h.options o (hP o h2)).2 h1, h2⟩

theorem types_supported : (∀ o ∈ r'.entries, ¬ RuleText.Unsupported o) ↔ ∀ o ∈ r.entries, ¬ RuleText.Unsupported o := by
  have := types_exists h (P := RuleText.Unsupported) fun _ => not_isType_of_unsupported
  constructor
  · intro h1 o ho hu
    obtain ⟨o', h2, h3⟩ := this.2 ⟨o, ho, hu⟩
    exact h1 o' h2 h3
  · intro h1 o ho hu
    obtain ⟨o', h2, h3⟩ := this.1 ⟨o, ho, hu⟩
    exact h1 o' h2 h3

theorem types_says {n : Bytes} (hn : n ∉ typeTable.map Prod.fst) : r'.Says n ↔ r.Says n :=
  types_exists h fun o ho => by
    rw [unsigned_of_fullName ho]
    exact not_isType_of_fullName hn ho

theorem types_denies {n : Bytes} (hn : n ∉ typeTable.map Prod.fst) : r'.Denies n ↔ r.Denies n :=
  types_exists h fun _ ho => not_isType_of_fullName hn ho.2

theorem types_taken : r'.TakenForType ↔ r.TakenForType :=
  or_congr (types_says h (by decide +kernel)) (types_says h (by decide +kernel))

theorem types_typeAllowed {q : Request} (hq : q.Web) (ha : q.type ≠ none ∨ AlikeInTypes r r') : r'.TypeAllowed q ↔ r.TypeAllowed q := by
  have ht := types_taken h
  have key : ∀ {x : RuleText} {t : Bytes × Mask}, ¬ x.TakenForType →
      ((t ∈ x.types ∨ (x.types = [] ∧ ¬ x.TakenForType)) ∧ t ∉ x.notTypes ∧ (t.1 = bs%"document" → t ∈ x.types) ↔ ForType x t) := by
    intro x t hx
    unfold ForType
    constructor
    · rintro ⟨h1, h2, h3⟩
      refine ⟨?_, h2⟩
      by_cases hm : t ∈ x.types
      · exact .inl hm
      · exact .inr ⟨(h1.resolve_left hm).1, mt h3 hm⟩
    · rintro ⟨h1 | ⟨h1, h2⟩, h3⟩
      · exact ⟨.inl h1, h3, fun _ => h1⟩
      · exact ⟨.inr ⟨h1, hx⟩, h3, fun e => absurd e h2⟩
  unfold RuleText.TypeAllowed
  cases hty : q.type with
  | some t =>
    dsimp only
    rw [key h.usual, key (mt ht.1 h.usual)]
    exact h.types t (hq.type t hty)
  | none =>
    obtain ⟨h1, h2⟩ := ha.resolve_left (fun hn => hn hty)
    dsimp only
    rw [h1, h2, ht]

theorem types_pageAllowed (q : Request) : r'.PageAllowed q ↔ r.PageAllowed q := by
  unfold RuleText.PageAllowed
  rw [h.domains]
  simp only [types_says h (n := bs%"third-party") (by decide +kernel), types_denies h (n := bs%"third-party") (by decide +kernel)]

theorem types_alike (bad tags : List Bytes) {q : Request} (hq : q.Web) (ha : q.type ≠ none ∨ AlikeInTypes r r') : RuleAlike bad tags q r r' := by
  have hf : r'.exception = r.exception ∧ r'.anchor = r.anchor ∧ r'.text = r.text ∧ r'.rightBar = r.rightBar ∧ r'.odd = r.odd := by
    have := h.rest
    refine ⟨?_, ?_, ?_, ?_, ?_⟩ <;> rw [← this]
  obtain ⟨h1, h2, h3, h4, h5⟩ := hf
  have hhost : r'.hostPart = r.hostPart := by
    unfold RuleText.hostPart
    rw [h3, h5]
  have honly : r'.HostOnly ↔ r.HostOnly := by
    unfold RuleText.HostOnly RuleText.written
    rw [h2, h3, h4, h5, hhost]
  have hby : ∀ dl, ByDomain bad r' dl ↔ ByDomain bad r dl := by
    intro dl
    unfold ByDomain RuleText.Indexable
    rw [h.domains, honly, h3]
  refine ⟨h1, honly, fun _ => hhost, types_supported h, ?_, ?_, fun dl hdl => ⟨dl, (hby dl).2 hdl, fun _ => Iff.rfl⟩,
    fun dl hdl => ⟨dl, (hby dl).1 hdl, fun _ => Iff.rfl⟩⟩
  · unfold RuleText.AppliesTo RuleText.AddressFits RuleText.TagEnabled
    rw [types_supported h, types_typeAllowed h hq ha, types_pageAllowed h, h.tag, h2, h3, h4, hhost]
  · unfold RuleText.ReadsPast
    simp only [types_supported h, types_typeAllowed h hq ha, types_pageAllowed h, h2, h3, h4, hhost, honly]

end

/-- **C112**, for requests of a known type: it does not matter in which way rules say what types they are for.  For the others, it
matters only whether they list types, and whether they exclude any. -/
theorem C112_same_types_partial {E : Env} {A B : Bytes} {rs : List RuleText} {φ : RuleText → RuleText} (hA : Lists E A rs)
    (hB : Lists E B (rs.map φ)) (hφ : ∀ r ∈ rs, SameUpToTypes r (φ r)) (preserve preserve' : Bool) (tags : List Bytes) {q : Request}
    (ht : q.type ≠ none ∨ ∀ r ∈ rs, AlikeInTypes r (φ r)) (hq : Askable E rs q) :
    ∃ b, Answers E A preserve tags q b ∧ Answers E B preserve' tags q b :=
  answers_alike hA hB (fun r hr => types_alike (hφ r hr) _ _ hq.web (ht.imp_right fun h => h r hr)) preserve preserve' hq

/-! ### examples -/

instance (r : RuleText) : Decidable r.TakenForType := inferInstanceAs (Decidable (_ ∨ _))

instance (r : RuleText) (t : Bytes × Mask) : Decidable (ForType r t) := inferInstanceAs (Decidable ((_ ∨ _) ∧ _))

/-- all options of the rule are about types -/
theorem types_only {r r' : RuleText} (h : ∀ o ∈ r.entries, IsType (RuleText.unsigned o)) (h' : ∀ o ∈ r'.entries, IsType (RuleText.unsigned o))
    (o : Bytes) (ho : ¬ IsType (RuleText.unsigned o)) : o ∈ r'.entries ↔ o ∈ r.entries :=
  ⟨fun hm => absurd (h' o hm) ho, fun hm => absurd (h o hm) ho⟩

instance (o : Bytes) : Decidable (IsType o) := inferInstanceAs (Decidable (∃ x ∈ typeTable, _))

/-- a rule for all but scripts, pictures and documents -/
def exNotScript : RuleText := { text := bs%"banner", options := some bs%"~script,~image" }

/-- the same rule, with the types that are left -/
def exAllOthers : RuleText :=
  { text := bs%"banner",
    options := some bs%"stylesheet,object,xmlhttprequest,object-subrequest,subdocument,other,xbl,font,media,webrtc,websocket,ping" }

theorem exNotScript_same : SameUpToTypes exNotScript exAllOthers :=
  ⟨rfl, by decide +kernel, types_only (by decide +kernel) (by decide +kernel), by decide +kernel, by decide +kernel, by decide +kernel⟩

/-- **C112**, an example: excluding types is the same as listing all others but documents. -/
example {E : Env} (hroll : ∀ url, E.fp.rolls url) : ∃ b, Answers E (listText [exNotScript.line]) false [] exBanner b ∧
    Answers E (listText [exAllOthers.line]) false [] exBanner b := by
  have hp : ∀ x ∈ [exNotScript], plainRule x = true := by decide +kernel
  have hp' : ∀ x ∈ [exAllOthers], plainRule x = true := by decide +kernel
  exact C112_same_types_partial (rs := [exNotScript]) (φ := fun _ => exAllOthers) (lists_rules (plainRules_sound hp) (by simp))
    (lists_rules (rs := [exAllOthers]) (plainRules_sound hp') (by simp)) (by simpa using exNotScript_same) false false [] (.inl (by decide +kernel))
    (plainRules_askable hroll hp exBanner_web)

/-- **C112**, an example: excluding types makes no difference where others are listed, even if the type is unknown. -/
example {E : Env} (hroll : ∀ url, E.fp.rolls url) (type : Option (Bytes × Mask)) (ht : ∀ t, type = some t → t ∈ typeTable) : ∃ b,
    Answers E bs%"banner$script,~image" false [] { exBanner with type := type } b ∧
    Answers E bs%"banner$~font,script,~image,~media" false [] { exBanner with type := type } b := by
  let r : RuleText := { text := bs%"banner", options := some bs%"script,~image" }
  let r' : RuleText := { text := bs%"banner", options := some bs%"~font,script,~image,~media" }
  have hp : ∀ x ∈ [r], plainRule x = true := by decide +kernel
  have hp' : ∀ x ∈ [r'], plainRule x = true := by decide +kernel
  have hs : SameUpToTypes r r' :=
    ⟨rfl, by decide +kernel, types_only (by decide +kernel) (by decide +kernel), by decide +kernel, by decide +kernel, by decide +kernel⟩
  refine C112_same_types_partial (rs := [r]) (φ := fun _ => r') (lists_rules (plainRules_sound hp) (by simp))
    (lists_rules (rs := [r']) (plainRules_sound hp') (by simp)) (by simpa using hs) false false [] (.inr ?_)
    (plainRules_askable hroll hp ⟨exBanner_web.scheme, exBanner_web.host, exBanner_web.rest, exBanner_web.text, ht⟩)
  have : AlikeInTypes r r' := ⟨by decide +kernel, by decide +kernel⟩
  simpa using this

/-- **C112** fails for requests of an unknown type: a rule that excludes types applies to them, one that lists all others does not. -/
theorem C112_unknown_counterexample {E : Env} (hroll : ∀ url, E.fp.rolls url) : SameUpToTypes exNotScript exAllOthers ∧
    Answers E (listText [exNotScript.line]) false [] { exBanner with type := none, domain := some bs%"b.com" } true ∧
    Answers E (listText [exAllOthers.line]) false [] { exBanner with type := none, domain := some bs%"b.com" } false := by
  have hw : ({ exBanner with type := none, domain := some bs%"b.com" } : Request).Web :=
    ⟨exBanner_web.scheme, exBanner_web.host, exBanner_web.rest, exBanner_web.text, by simp⟩
  exact ⟨exNotScript_same,
    answers_compared (v := true) (r := exNotScript) hroll (by decide +kernel) rfl (.inl (by decide +kernel)) (by decide +kernel) (by decide +kernel) hw
      (by decide +kernel),
    answers_compared (v := false) (r := exAllOthers) hroll (by decide +kernel) rfl (.inl (by decide +kernel)) (by decide +kernel) (by decide +kernel) hw
      (by decide +kernel)⟩

end AdBlock
