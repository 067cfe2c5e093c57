import Verif.Lemmas.ParseStep
import Verif.Model.Client
/-! Facts about every rule the parser produces. -/
namespace AdBlock
open Spec

/-! #### options keep everything else -/

theorem parseOption_keep {α} (g : Filter → α)
    (h1 : ∀ f : Filter, ∀ m, g { f with filterOption := m } = g f)
    (h2 : ∀ f : Filter, ∀ m, g { f with antiFilterOption := m } = g f)
    (h3 : ∀ f : Filter, ∀ m, g { f with domainList := m } = g f)
    (h4 : ∀ f : Filter, ∀ m, g { f with tag := m } = g f) (f : Filter) (o : Bytes) :
    g (f.parseOption o) = g f := by
  simp only [Filter.parseOption]
  repeat' split
  all_goals first | exact h1 f _ | exact h2 f _ | exact h3 f _ | exact h4 f _

theorem parseOptions_keep {α} (g : Filter → α)
    (h1 : ∀ f : Filter, ∀ m, g { f with filterOption := m } = g f)
    (h2 : ∀ f : Filter, ∀ m, g { f with antiFilterOption := m } = g f)
    (h3 : ∀ f : Filter, ∀ m, g { f with domainList := m } = g f)
    (h4 : ∀ f : Filter, ∀ m, g { f with tag := m } = g f) (f : Filter) (o : Bytes) :
    g (f.parseOptions o) = g f := by
  have h5 : ∀ (o cur : Bytes) (f : Filter), g (f.parseOptionsLoop cur o) = g f := by
    intro o
    induction o with
    | nil => intro cur f; exact parseOption_keep g h1 h2 h3 h4 f cur
    | cons c o ih =>
      intro cur f
      simp only [Filter.parseOptionsLoop]
      split
      · exact parseOption_keep g h1 h2 h3 h4 f cur
      · split
        · rw [ih, parseOption_keep g h1 h2 h3 h4]
        · exact ih _ _
  unfold Filter.parseOptions
  rw [h5, ← h1 f 0, ← h2 { f with filterOption := 0 } 0]

/-- the members options do not touch -/
structure Core where
  borrowed : Bool
  filterType : Mask
  ruleDefinition : Option Bytes
  data : Option Ptr
  dataLen : Option Nat
  host : Option Bytes

def Filter.core (f : Filter) : Core :=
  ⟨f.borrowed, f.filterType, f.ruleDefinition, f.data, f.dataLen, f.host⟩

theorem parseOptions_core (f : Filter) (o : Bytes) : (f.parseOptions o).core = f.core :=
  parseOptions_keep Filter.core (fun _ _ => rfl) (fun _ _ => rfl) (fun _ _ => rfl) (fun _ _ => rfl) f o

/-- the bits a network rule can have -/
def netMask : Mask := FTLeftAnchored ||| FTRightAnchored ||| FTHostAnchored ||| FTHostOnly ||| FTException

/-- the bits of rules for requests -/
def NetBits (m : Mask) : Prop := m &&& ~~~ netMask = 0

instance (m : Mask) : Decidable (NetBits m) := inferInstanceAs (Decidable (_ = _))

theorem netBits_or {a b : Mask} (ha : NetBits a) (hb : NetBits b) : NetBits (a ||| b) := by
  unfold NetBits at *
  ext i
  have h1 := congrArg (fun x => x.getLsbD i) ha
  have h2 := congrArg (fun x => x.getLsbD i) hb
  simp only [BitVec.getLsbD_and, BitVec.getLsbD_zero] at h1 h2
  simp_all [BitVec.getLsbD_or]
  grind

/-- what is known about the state of the parser -/
structure LoopInv (s : PLocals) : Prop where
  borrowed : s.f.borrowed = false
  dataLen : s.f.dataLen = none
  data : s.f.data = none
  text : 0 ∉ s.data
  host : has s.f.filterType FTHostAnchored = true → s.f.host.isSome = true
  hostOnly : has s.f.filterType FTHostOnly = true → has s.f.filterType FTHostAnchored = true
  net : s.st ≠ .dataOnly → NetBits s.f.filterType
  only : s.st = .dataOnly → s.f.filterType = FTElementHiding ∨ s.f.filterType = FTElementHidingException ∨
    s.f.filterType = FTHTMLFiltering
  definition : s.f.ruleDefinition = none

/-- what is known about the outcome of the loop: an early return is a comment, a regular
expression or an over-long line -/
def LoopPost (o : LoopOut) : Prop :=
  match o with
  | .fin s => LoopInv s
  | .ret f => f.borrowed = false ∧ f.dataLen = none ∧
      (has f.filterType FTHostAnchored = true → f.host.isSome = true) ∧
      (has f.filterType FTHostOnly = true → has f.filterType FTHostAnchored = true) ∧
      ((f.data = none ∧ f.filterType = FTComment) ∨
       (f.filterType = FTRegex ∧ ∃ pat, 0 ∉ pat ∧ f.data = some (cstr pat)) ∨
       (f.data = none ∧ NetBits f.filterType) ∨
       (f.data = none ∧ (f.filterType = FTElementHiding ∨ f.filterType = FTElementHidingException ∨
        f.filterType = FTHTMLFiltering)))

theorem has_or_iff (a b m : Mask) : has (a ||| b) m = true ↔ has a m = true ∨ has b m = true := by
  rw [has_or_left]; simp

theorem parseLoop_facts {line : Bytes} {t : Byte} (ht : Term t) {pr : Bool} {o : LoopOut} (h0 : 0 ∉ line)
    (h : parseLoop line t pr line 0 {} = .ok o) : LoopPost o := by
  refine parseLoop_inv' ht (R := fun c => c ≠ 0) (P := LoopInv) (Q := LoopPost) ?_ ?_ ?_ ?_ ?_
    (fun c hc e => h0 (e ▸ hc)) ?_ h
  · intro s h; exact h
  · intro s h
    refine ⟨h.borrowed, h.dataLen, h.host, h.hostOnly, ?_⟩
    by_cases hs : s.st = .dataOnly
    · exact .inr (.inr (.inr ⟨h.data, h.only hs⟩))
    · exact .inr (.inr (.inl ⟨h.data, h.net hs⟩))
  · intro s c hc hs h
    exact { h with
      text := by simp only [PLocals.push, List.mem_append, List.mem_singleton, not_or]; exact ⟨h.text, fun e => hc e.symm⟩ }
  · intro s c h hs hc
    exact { h with
      host := by simp only [Filter.addType, has_or_iff]; exact fun h' => h.host (by simpa [show has FTLeftAnchored FTHostAnchored = false by decide] using h')
      hostOnly := by
        simp only [Filter.addType, has_or_iff]
        intro h'
        exact .inl (h.hostOnly (by simpa [show has FTLeftAnchored FTHostOnly = false by decide] using h'))
      net := fun _ => netBits_or (h.net (by rw [hs]; simp)) (by decide)
      only := by simp }
  · intro c p s n hc hp h hs hcase
    have hnet := h.net hs
    have hpush : 0 ∉ s.data ++ [c] := by
      simp only [List.mem_append, List.mem_singleton, not_or]; exact ⟨h.text, fun e => hc e.symm⟩
    have htd : s.takeDomains.f.core = s.f.core ∧ 0 ∉ s.takeDomains.data := by
      unfold PLocals.takeDomains; split
      · exact ⟨rfl, by simp⟩
      · exact ⟨rfl, h.text⟩
    cases hcase with
    | bar1 h1 h2 => exact { h with net := fun _ => hnet, only := by simp }
    | bar2 h1 h2 =>
      refine { h with host := fun _ => rfl, hostOnly := ?_, net := ?_, only := by simp [PLocals.anchored], definition := h.definition }
      · intro _
        show has (if _ then _ else _) FTHostAnchored = true
        generalize (if p[(anchoredHost p).length]? = some ch%'^' then endsHostAt p ((anchoredHost p).length + 1)
          else endsHostAt p (anchoredHost p).length) = b
        cases b <;> simp [has_or_iff, show has FTHostAnchored FTHostAnchored = true by decide]
      · intro _
        show NetBits (if _ then _ else _)
        generalize (if p[(anchoredHost p).length]? = some ch%'^' then endsHostAt p ((anchoredHost p).length + 1)
          else endsHostAt p (anchoredHost p).length) = b
        cases b
        · exact netBits_or hnet (by decide)
        · exact netBits_or (netBits_or hnet (by decide)) (by decide)
    | barR h1 h2 =>
      exact { h with
        host := by simp only [Filter.addType, has_or_iff]; exact fun h' => h.host (by simpa [show has FTRightAnchored FTHostAnchored = false by decide] using h')
        hostOnly := by
          simp only [Filter.addType, has_or_iff]
          intro h'
          exact .inl (h.hostOnly (by simpa [show has FTRightAnchored FTHostOnly = false by decide] using h'))
        net := fun _ => netBits_or hnet (by decide)
        only := by simp }
    | at1 h1 h2 => exact { h with net := fun _ => hnet, only := by simp }
    | at2 h1 h2 =>
      exact { h with host := by simp [show has FTException FTHostAnchored = false by decide],
                     hostOnly := by simp [show has FTException FTHostOnly = false by decide]
                     net := fun _ => (show NetBits FTException by decide), only := by simp }
    | comment h1 h2 =>
      exact ⟨h.borrowed, h.dataLen, by simp [show has FTComment FTHostAnchored = false by decide],
        by simp [show has FTComment FTHostOnly = false by decide], .inl ⟨h.data, rfl⟩⟩
    | white h1 h2 => exact { h with }
    | push h1 h2 h3 => exact { h with text := hpush }
    | data h1 h2 h3 => exact { h with text := hpush, net := fun _ => hnet, only := by simp [PLocals.push] }
    | regex f h1 h2 h3 =>
      unfold regexFilter at h3
      split at h3
      · cases h3
        refine ⟨h.borrowed, h.dataLen, by simp [show has FTRegex FTHostAnchored = false by decide],
          by simp [show has FTRegex FTHostOnly = false by decide], .inr (.inl ⟨rfl, _, ?_, rfl⟩)⟩
        intro h'
        exact h0 (List.mem_of_mem_drop (List.mem_of_mem_take h'))
      · cases h3
    | html h1 h2 =>
      have hc := htd.1
      simp only [Filter.core, Core.mk.injEq] at hc
      exact { borrowed := hc.1.trans h.borrowed, dataLen := hc.2.2.2.2.1.trans h.dataLen, data := hc.2.2.2.1.trans h.data
              text := htd.2
              host := by simp [show has FTHTMLFiltering FTHostAnchored = false by decide]
              hostOnly := by simp [show has FTHTMLFiltering FTHostOnly = false by decide]
              net := by simp, only := by simp, definition := hc.2.2.1.trans h.definition }
    | opts h1 h2 =>
      have hc := parseOptions_core s.f p
      simp only [Filter.core, Core.mk.injEq] at hc
      exact { borrowed := hc.1.trans h.borrowed, dataLen := hc.2.2.2.2.1.trans h.dataLen, data := hc.2.2.2.1.trans h.data
              text := h.text
              host := by
                simp only [PLocals.dollar]
                rw [hc.2.1, hc.2.2.2.2.2]; exact h.host
              hostOnly := by simp only [PLocals.dollar]; rw [hc.2.1]; exact h.hostOnly
              net := fun _ => by simp only [PLocals.dollar]; rw [hc.2.1]; exact hnet
              only := fun h' => absurd h' hs
              definition := hc.2.2.1.trans h.definition }
    | cosmetic m h1 h2 h3 =>
      have hc := htd.1
      simp only [Filter.core, Core.mk.injEq] at hc
      have hm : m = FTElementHiding ∨ m = FTElementHidingException := by rw [h3]; split <;> simp
      exact { borrowed := hc.1.trans h.borrowed, dataLen := hc.2.2.2.2.1.trans h.dataLen, data := hc.2.2.2.1.trans h.data
              text := htd.2
              host := by rcases hm with rfl | rfl <;> simp [show has FTElementHiding FTHostAnchored = false by decide, show has FTElementHidingException FTHostAnchored = false by decide]
              hostOnly := by rcases hm with rfl | rfl <;> simp [show has FTElementHiding FTHostOnly = false by decide, show has FTElementHidingException FTHostOnly = false by decide]
              net := by simp, only := fun _ => by rcases hm with h | h <;> simp [h]
              definition := hc.2.2.1.trans h.definition }
  · exact ⟨rfl, rfl, rfl, by simp, by simp [show has (0#32) FTHostAnchored = false by decide],
      by simp [show has (0#32) FTHostOnly = false by decide], fun _ => by decide, by simp, rfl⟩

/-- what is known about every rule produced by the parser -/
structure Parsed (f : Filter) : Prop where
  borrowed : f.borrowed = false
  dataLen : f.dataLen = none
  text : f.data = none ∨ ∃ pat, 0 ∉ pat ∧ f.data = some (cstr pat)
  host : has f.filterType FTHostAnchored = true → f.host.isSome = true
  hostOnly : has f.filterType FTHostOnly = true → has f.filterType FTHostAnchored = true
  kind : NetBits f.filterType ∨ f.filterType = FTElementHiding ∨ f.filterType = FTElementHidingException ∨
    f.filterType = FTHTMLFiltering ∨ f.filterType = FTComment ∨ f.filterType = FTEmpty ∨ f.filterType = FTRegex
  /-- rules for requests without text are over-long -/
  kindNone : f.data = none → f.filterType ≠ FTRegex

/-- where the parser enters a rule -/
inductive EffectOf (bad : List Bytes) (f : Filter) : Effect → Prop
  | noText : f.data = none → EffectOf bad f .none
  | other : f.filterType = FTRegex ∨ f.filterType = FTElementHiding ∨ f.filterType = FTElementHidingException →
      EffectOf bad f .none
  | host : f.data ≠ none → has f.filterType FTHostOnly = true → EffectOf bad f
      (if has f.filterType FTException then .addHostException else .addHost)
  | noFp : f.data ≠ none → has f.filterType FTHostOnly = false → getFingerprint bad f = .ok none → EffectOf bad f .none
  | fp (w : Bytes) : f.data ≠ none → has f.filterType FTHostOnly = false → getFingerprint bad f = .ok (some w) →
      EffectOf bad f (if has f.filterType FTException then .addExceptionFingerprint w else .addFingerprint w)

theorem finishWith_effect {bad : List Bytes} {full : Bool} {f g : Filter} {e : Effect} (hd : f.data ≠ none)
    (h : finishWith bad full f = .ok (g, e)) :
    g = f ∧ (full = false → e = .none) ∧ (full = true → EffectOf bad f e) := by
  unfold finishWith at h
  split at h
  · cases h; rename_i h'; exact ⟨rfl, fun _ => rfl, fun _ => .other (.inr (.inl h'))⟩
  split at h
  · cases h; rename_i h'; exact ⟨rfl, fun _ => rfl, fun _ => .other (.inr (.inr h'))⟩
  split at h
  · cases h
    rename_i h'
    simp only [Bool.and_eq_true] at h'
    refine ⟨rfl, by simp [h'.1.1], fun _ => ?_⟩
    have := EffectOf.host (bad := bad) hd h'.2
    rwa [h'.1.2] at this
  split at h
  · cases h
    rename_i h1 h2
    simp only [Bool.and_eq_true] at h1 h2
    refine ⟨rfl, by simp [h2.1], fun _ => ?_⟩
    have := EffectOf.host (bad := bad) hd h2.2
    rw [if_neg (fun h3 => h1 ⟨⟨h2.1, h3⟩, h2.2⟩)] at this
    exact this
  · rename_i h1 h2
    rw [Res.bind_eq_ok] at h
    obtain ⟨fp, hfp, h⟩ := h
    have hho : full = true → has f.filterType FTHostOnly = false := by
      rintro rfl
      simpa using h2
    cases fp with
    | none => cases h; exact ⟨rfl, fun _ => rfl, fun hf => .noFp hd (hho hf) hfp⟩
    | some w =>
      simp only at h
      split at h
      · cases h
        rename_i h3
        simp only [Bool.and_eq_true] at h3
        refine ⟨rfl, by simp [h3.1], fun hf => ?_⟩
        have := EffectOf.fp w hd (hho hf) hfp
        rwa [h3.2] at this
      · split at h
        · cases h
          rename_i h3 h4
          refine ⟨rfl, by simp [h4], fun hf => ?_⟩
          have := EffectOf.fp w hd (hho hf) hfp
          rw [if_neg (by simpa [h4] using h3)] at this
          exact this
        · cases h
          rename_i h3 h4
          exact ⟨rfl, fun _ => rfl, fun hf => absurd hf h4⟩

theorem finishWith_pass {bad : List Bytes} {f g : Filter} {e : Effect} (h : finishWith bad false f = .ok (g, e)) :
    ∃ e', finishWith bad true f = .ok (g, e') := by
  unfold finishWith at h ⊢
  simp only [Bool.false_and, Bool.false_eq_true, ↓reduceIte, Bool.true_and] at h ⊢
  split at h
  · rw [if_pos ‹_›]; exact ⟨_, h⟩
  rw [if_neg ‹_›]
  split at h
  · rw [if_pos ‹_›]; exact ⟨_, h⟩
  rw [if_neg ‹_›]
  rw [Res.bind_eq_ok] at h
  obtain ⟨fp, hfp, h⟩ := h
  have hg : g = f := by cases fp <;> cases h <;> rfl
  subst hg
  rw [hfp]
  simp only [Res.bind_ok]
  repeat' split
  all_goals exact ⟨_, rfl⟩

theorem result_facts {s : PLocals} (h : LoopInv s) (hs : s.st ≠ .start) (line : Bytes) (pr : Bool) :
    Parsed (s.result line pr) ∧ (s.result line pr).data ≠ none := by
  refine ⟨⟨h.borrowed, h.dataLen, .inr ⟨s.data, h.text, rfl⟩, h.host, h.hostOnly, ?_, by simp [PLocals.result]⟩, by simp [PLocals.result]⟩
  by_cases hst : s.st = .dataOnly
  · rcases h.only hst with h | h | h
    · exact .inr (.inl h)
    · exact .inr (.inr (.inl h))
    · exact .inr (.inr (.inr (.inl h)))
  · exact .inl (h.net hst)

/-- Facts about every parsed rule. -/
theorem parseFilter_facts {bad : List Bytes} {line : Bytes} {t : Byte} (ht : Term t) {pr full : Bool} {f : Filter}
    {e : Effect} (h0 : 0 ∉ line) (h : parseFilter bad line t pr full = .ok (f, e)) :
    Parsed f ∧ (full = false → e = .none) ∧ (full = true → EffectOf bad f e) := by
  unfold parseFilter at h
  rw [Res.bind_eq_ok] at h
  obtain ⟨o, ho, h⟩ := h
  have hpost := parseLoop_facts ht h0 ho
  cases o with
  | ret g =>
    cases h
    obtain ⟨p1, p2, p3, p4, p5⟩ := hpost
    have hreg : f.data = none → f.filterType ≠ FTRegex := by
      intro hd he
      rcases p5 with ⟨_, h2⟩ | ⟨_, pat, _, h2⟩ | ⟨_, h2⟩ | ⟨_, h2 | h2 | h2⟩
      · rw [he] at h2; exact absurd h2 (by decide)
      · rw [hd] at h2; cases h2
      · rw [he] at h2; exact absurd h2 (by decide)
      · rw [he] at h2; exact absurd h2 (by decide)
      · rw [he] at h2; exact absurd h2 (by decide)
      · rw [he] at h2; exact absurd h2 (by decide)
    rcases p5 with ⟨h1, h2⟩ | ⟨h1, pat, h2, h3⟩ | ⟨h1, h2⟩ | ⟨h1, h2⟩
    · exact ⟨⟨p1, p2, .inl h1, p3, p4, by simp [h2], hreg⟩, fun _ => rfl, fun _ => .noText h1⟩
    · exact ⟨⟨p1, p2, .inr ⟨pat, h2, h3⟩, p3, p4, by simp [h1], hreg⟩, fun _ => rfl, fun _ => .other (.inl h1)⟩
    · exact ⟨⟨p1, p2, .inl h1, p3, p4, .inl h2, hreg⟩, fun _ => rfl, fun _ => .noText h1⟩
    · exact ⟨⟨p1, p2, .inl h1, p3, p4, by rcases h2 with h2 | h2 | h2 <;> simp [h2], hreg⟩, fun _ => rfl, fun _ => .noText h1⟩
  | fin s =>
    have h : finishFilter bad line pr full s = .ok (f, e) := h
    by_cases hs : s.st = .start
    · simp only [finishFilter, hs, ↓reduceIte, Res.pure_eq, Res.ok.injEq, Prod.mk.injEq] at h
      obtain ⟨rfl, rfl⟩ := h
      refine ⟨⟨hpost.borrowed, hpost.dataLen, .inl hpost.data, ?_, ?_, ?_, ?_⟩, fun _ => rfl, fun _ => .noText hpost.data⟩
      · simp [show has FTEmpty FTHostAnchored = false by decide]
      · simp [show has FTEmpty FTHostOnly = false by decide]
      · simp
      · intro _; show FTEmpty ≠ FTRegex; decide
    · rw [finishFilter_eq _ _ _ _ hs] at h
      have hr := result_facts hpost hs line pr
      have := finishWith_effect hr.2 h
      obtain ⟨rfl, h1, h2⟩ := this
      exact ⟨hr.1, h1, h2⟩

/-- A rule accepted by the first pass is also accepted by the second. -/
theorem parseFilter_pass {bad : List Bytes} {line : Bytes} {t : Byte} {pr : Bool} {f : Filter}
    {e : Effect} (h : parseFilter bad line t pr false = .ok (f, e)) :
    ∃ e', parseFilter bad line t pr true = .ok (f, e') := by
  unfold parseFilter at h ⊢
  rw [Res.bind_eq_ok] at h
  obtain ⟨o, ho, h⟩ := h
  rw [ho, Res.bind_ok]
  cases o with
  | ret g => exact ⟨_, h⟩
  | fin s =>
    have h : finishFilter bad line pr false s = .ok (f, e) := h
    show ∃ e', finishFilter bad line pr true s = .ok (f, e')
    by_cases hs : s.st = .start
    · simp only [finishFilter, hs, ↓reduceIte] at h ⊢; exact ⟨_, h⟩
    · rw [finishFilter_eq _ _ _ _ hs] at h ⊢
      exact finishWith_pass h

theorem strip_eq_self {f : Filter} (h : f.ruleDefinition = none) : f.strip = f := by
  cases f; simp_all [Filter.strip]

/-- The rule of the second pass (with `preserve`) is the one of the first up to the
original text. -/
theorem parseFilter_passes {bad : List Bytes} {line : Bytes} {t : Byte} {f : Filter}
    {e : Effect} (h : parseFilter bad line t false false = .ok (f, e)) (pr : Bool) :
    ∃ g e', parseFilter bad line t pr true = .ok (g, e') ∧ g.strip = f.strip := by
  obtain ⟨e', h'⟩ := parseFilter_pass h
  have := parseFilter_preserve bad line t pr true
  rw [h'] at this
  cases hp : parseFilter bad line t pr true with
  | ub u => rw [hp] at this; simp at this
  | ok x =>
    rw [hp] at this
    simp only [Res.map_ok, Res.ok.injEq, stripPair, Prod.mk.injEq] at this
    exact ⟨x.1, x.2, rfl, this.1⟩

theorem classify_strip (bad : List Bytes) (f : Filter) : classify bad f.strip = classify bad f := rfl

end AdBlock
