import Verif.SpecSilent
import Verif.Lemmas.AnyLine
import Verif.Lemmas.Cached
import Verif.Props.EveryList
/-!
Clients that differ only in rules which never apply give the same answers.
-/
namespace AdBlock
open Spec

/-! ### lines without a network rule -/

/-- what a line without a network rule is read as -/
theorem parse_silent {line : Bytes} (hclean : ∀ c ∈ line, c ≠ 0 ∧ c ≠ 10 ∧ c ≠ 13) (h : Silent line) (bad : List Bytes) (pr full : Bool) :
    ∃ f, parseFilter bad line 0 pr full = .ok (f, .none) ∧ (classify bad f = .ok .drop ∨
      ∃ id, classify bad f = .ok (.list id) ∧ (id = .cosmetic ∨ (Inert f ∧ f.domainList = none))) := by
  have h0 : 0 ∉ line := fun h => (hclean 0 h).1 rfl
  have inert : ∀ {f : Filter} {fp}, parseFilter bad line 0 pr full = .ok (f, .none) → getFingerprint bad f = .ok fp → Inert f →
      f.domainList = none → ∃ f, parseFilter bad line 0 pr full = .ok (f, .none) ∧ (classify bad f = .ok .drop ∨
      ∃ id, classify bad f = .ok (.list id) ∧ (id = .cosmetic ∨ (Inert f ∧ f.domainList = none))) := by
    intro f fp h1 hfp hi hd
    refine ⟨f, h1, ?_⟩
    obtain ⟨cl, hcl⟩ := classify_ok hfp
    have hc := classify_spec (parseFilter_facts (.inl rfl) h0 h1).1 hcl
    cases hc with
    | unsupported => exact .inl hcl
    | idle => exact .inl hcl
    | host s _ _ ho => rw [hi.1] at ho; cases ho
    | _ => exact .inr ⟨_, hcl, .inr ⟨hi, hd⟩⟩
  cases h with
  | idle h =>
    rcases h with ⟨h1, h2⟩ | h
    · have := C18_blank_line bad line 0 pr full h1 h2
      exact ⟨_, this.1, .inl this.2⟩
    · have := C18_comment_line bad line 0 pr full h
      exact ⟨_, this.1, .inl this.2⟩
  | remark h =>
    obtain ⟨f, h1, h2, -⟩ := parse_remark h bad pr full
    exact ⟨f, h1, .inl (classify_idle (.inr h2))⟩
  | regex h =>
    obtain ⟨a, kept, rest, f, -, -, h1, h2, h3, h4, h5⟩ := parse_regexLine h bad pr full
    have hfp : getFingerprint bad f = .ok none := by
      unfold getFingerprint
      rw [h2]; rfl
    refine inert h1 hfp ⟨by rw [h2]; decide, fun url ctx d bloom => ?_⟩ h3
    rcases matches_regex f h2 (regex_text h0 _ _) h4 url ctx d bloom with h | h
    · exact h
    · exact absurd h5 h
  | options h =>
    obtain ⟨f, h1, h2⟩ := parse_bareOptions h bad pr full
    exact ⟨f, h1, .inl (classify_idle (.inl h2))⟩
  | @elements before mark selector hb hm hlen =>
    have hm' : mark ∈ [bs%"##", bs%"#@", bs%"$$"] ∧ mark ≠ bs%"$$" := by
      simp only [List.mem_cons, List.not_mem_nil, or_false] at hm
      rcases hm with rfl | rfl <;> decide
    obtain ⟨f, e, h1, -, h2⟩ := parse_pageLine hclean hb hm'.1 hlen bad pr full
    obtain ⟨h3, rfl⟩ := h2 hm'.2
    refine ⟨f, h1, ?_⟩
    rcases classify_cosmetic (bad := bad) (f := f) (by rcases h3 with h | h <;> simp [h]) with h | h | h
    · exact .inl h
    · exact .inr ⟨_, h, .inl rfl⟩
    · exfalso
      unfold classify at h
      by_cases hu : f.hasUnsupportedOptions = true
      · rw [if_pos hu] at h; cases h
      · rw [if_neg hu] at h
        rcases h3 with h3 | h3 <;> rw [h3] at h <;> cases h
  | long hb hlen hr hh =>
    obtain ⟨f, fp, h1, h2, h3, h4, h5⟩ := parse_longLine hclean hb hlen hr hh bad pr full
    exact inert h1 h5 ⟨h4, fun url ctx d bloom => matches_no_text f h2 url ctx d bloom⟩ h3

/-- a line without a network rule, without characters that cannot occur in a line -/
def Mute (line : Bytes) : Prop := Silent line ∧ ∀ c ∈ line, c ≠ 0 ∧ c ≠ 10 ∧ c ≠ 13

/-! ### lists that differ in rules which never apply -/

/-- the second list is the first one, up to rules which never apply -/
inductive UptoInert : List Filter → List Filter → Prop
  | nil : UptoInert [] []
  | both {f l l'} : UptoInert l l' → UptoInert (f :: l) (f :: l')
  | left {f l l'} : Inert f → UptoInert l l' → UptoInert (f :: l) l'
  | right {f l l'} : Inert f → UptoInert l l' → UptoInert l (f :: l')

theorem UptoInert.refl : ∀ l : List Filter, UptoInert l l
  | [] => .nil
  | _ :: l => .both (UptoInert.refl l)

theorem UptoInert.append {l l' m m' : List Filter} (h : UptoInert l l') (h' : UptoInert m m') : UptoInert (l ++ m) (l' ++ m') := by
  induction h with
  | nil => exact h'
  | both _ ih => exact .both ih
  | left hi _ ih => exact .left hi ih
  | right hi _ ih => exact .right hi ih

theorem hasMatching_upto {tags : List Bytes} {m : Filter → Res Bool} (hm : ∀ f, Inert f → m f = .ok false) {l l' : List Filter}
    (h : UptoInert l l') : hasMatchingFilters tags m l = hasMatchingFilters tags m l' := by
  induction h with
  | nil => rfl
  | both _ ih => simp only [hasMatchingFilters]; rw [ih]
  | left hi _ ih => simp only [hasMatchingFilters]; rw [hm _ hi]; exact ih
  | right hi _ ih => simp only [hasMatchingFilters]; rw [hm _ hi]; exact ih

theorem callMatch_inert (E : Env) (url : Bytes) (ctx : Mask) (dom : Option Bytes) (f : Filter) (h : Inert f) :
    Client.callMatch E url ctx dom f = .ok false := h.2 ..

theorem callMatchNoBloom_inert (url : Bytes) (ctx : Mask) (dom : Option Bytes) (f : Filter) (h : Inert f) :
    Client.callMatchNoBloom url ctx dom f = .ok false := h.2 ..

/-- corresponding arrays of rules -/
def UptoLists (L L' : ListId → List Filter) : Prop := ∀ id, id ≠ .cosmetic → id ≠ .html → UptoInert (L id) (L' id)

/-- the same client, up to rules which never apply -/
def UptoSilent {E : Env} (c d : Client E) : Prop := ∃ L, d = { c with lists := L } ∧ UptoLists c.lists L

theorem UptoSilent.refl {E : Env} (c : Client E) : UptoSilent c c := ⟨c.lists, rfl, fun _ _ _ => .refl _⟩

section
variable {E : Env} {c d : Client E} (h : UptoSilent c d) {url : Bytes} {ctx : Mask} {dom : Option Bytes}
include h

theorem noFpPhase_upto {ds as : DomId} {dl al l : ListId} (hd : dl ≠ .cosmetic ∧ dl ≠ .html) (ha : al ≠ .cosmetic ∧ al ≠ .html)
    (hl : l ≠ .cosmetic ∧ l ≠ .html) : c.noFpPhase ds as dl al l url ctx dom = d.noFpPhase ds as dl al l url ctx dom := by
  obtain ⟨L, rfl, hL⟩ := h
  rw [noFpPhase_eq, noFpPhase_eq]
  have key := fun id h1 h2 => hasMatching_upto (tags := c.tags) (callMatch_inert E url ctx dom) (hL id h1 h2)
  rw [key dl hd.1 hd.2, key al ha.1 ha.2, key l hl.1 hl.2]

theorem blockPhase_upto : c.blockPhase url ctx dom = d.blockPhase url ctx dom := by
  have hp := noFpPhase_upto h (url := url) (ctx := ctx) (dom := dom) (ds := .domain) (as := .antiDomain) (dl := .noFpDomain)
    (al := .noFpAntiDomain) (l := .noFp) (by decide) (by decide) (by decide)
  unfold Client.blockPhase
  rw [hp]
  obtain ⟨L, rfl, hL⟩ := h
  have key := hasMatching_upto (tags := c.tags) (callMatch_inert E url ctx dom) (hL .filters (by decide) (by decide))
  dsimp only
  rw [key]

theorem exceptionPhase_upto (mf : Option Filter) : c.exceptionPhase mf url ctx dom = d.exceptionPhase mf url ctx dom := by
  have hp := noFpPhase_upto h (url := url) (ctx := ctx) (dom := dom) (ds := .domainException) (as := .antiDomainException)
    (dl := .noFpDomainException) (al := .noFpAntiDomainException) (l := .noFpException) (by decide) (by decide) (by decide)
  unfold Client.exceptionPhase
  rw [hp]
  obtain ⟨L, rfl, hL⟩ := h
  have key := hasMatching_upto (tags := c.tags) (callMatch_inert E url ctx dom) (hL .exception (by decide) (by decide))
  dsimp only
  rw [key]

theorem query_upto (url : Bytes) (co : Mask) (dom : Option Bytes) : c.query url co dom = d.query url co dom := by
  have h1 := blockPhase_upto h (url := url) (ctx := resolveContext url co dom) (dom := dom)
  have h2 := fun mf => exceptionPhase_upto h (url := url) (ctx := resolveContext url co dom) (dom := dom) mf
  unfold Client.query
  simp only [h1, h2]
  obtain ⟨L, rfl, hL⟩ := h
  rfl

theorem find_upto (url : Bytes) (co : Mask) (dom : Option Bytes) : c.findMatchingFilters url co dom = d.findMatchingFilters url co dom := by
  obtain ⟨L, rfl, hL⟩ := h
  have key := fun id h1 h2 => hasMatching_upto (tags := c.tags) (callMatchNoBloom_inert url (resolveContext url co dom) dom) (hL id h1 h2)
  rw [find_orTry, find_orTry]
  simp only [firstInLists]
  rw [key .noFp (by decide) (by decide), key .noFpDomain (by decide) (by decide), key .noFpAntiDomain (by decide) (by decide),
    key .filters (by decide) (by decide), key .noFpException (by decide) (by decide), key .noFpDomainException (by decide) (by decide),
    key .noFpAntiDomainException (by decide) (by decide), key .exception (by decide) (by decide)]

end

/-! ### loading -/

/-- the same structures, up to rules which never apply -/
def UptoBuild {E : Env} (b b' : Build E) : Prop := ∃ A, b' = { b with arr := A } ∧ UptoLists b.arr A

theorem UptoBuild.refl {E : Env} (b : Build E) : UptoBuild b b := ⟨b.arr, rfl, fun _ _ _ => .refl _⟩

theorem apply_upto {E : Env} {b b' : Build E} (h : UptoBuild b b') (f : Filter) (e : Effect) :
    RelRes UptoBuild (b.apply f e) (b'.apply f e) := by
  obtain ⟨A, rfl, hA⟩ := h
  cases e with
  | none => exact .ok ⟨A, rfl, hA⟩
  | addHostException =>
    simp only [Build.apply]
    refine RelRes.bind (RelRes.refl (R := Eq) (fun _ => rfl) _) ?_
    rintro g _ rfl
    exact .ok ⟨A, rfl, hA⟩
  | addHost =>
    simp only [Build.apply]
    refine RelRes.bind (RelRes.refl (R := Eq) (fun _ => rfl) _) ?_
    rintro g _ rfl
    exact .ok ⟨A, rfl, hA⟩
  | addExceptionFingerprint w => exact .ok ⟨A, rfl, hA⟩
  | addFingerprint w => exact .ok ⟨A, rfl, hA⟩

theorem store_upto {E : Env} {b b' : Build E} (h : UptoBuild b b') (f : Filter) (cl : Class) :
    RelRes UptoBuild (b.store f cl) (b'.store f cl) := by
  obtain ⟨A, rfl, hA⟩ := h
  cases cl with
  | drop => exact .ok ⟨A, rfl, hA⟩
  | hostAnchored => exact .ok ⟨A, rfl, hA⟩
  | hostAnchoredException => exact .ok ⟨A, rfl, hA⟩
  | list id =>
    have fin : ∀ b b' : Build E, UptoBuild b b' → UptoBuild { b with arr := fun i => if i = id then b.arr i ++ [f] else b.arr i }
        { b' with arr := fun i => if i = id then b'.arr i ++ [f] else b'.arr i } := by
      rintro b b' ⟨A, rfl, hA⟩
      refine ⟨_, rfl, fun i h1 h2 => ?_⟩
      simp only
      split
      · exact (hA i h1 h2).append (.refl [f])
      · exact hA i h1 h2
    simp only [Build.store]
    cases id.domId with
    | none => exact .ok (fin b _ ⟨A, rfl, hA⟩)
    | some dd =>
      simp only
      cases addFilterDomainsToHashSet E f (b.domSets dd) with
      | ub u => exact .ub u
      | ok s => exact .ok (fin _ _ ⟨A, rfl, hA⟩)

theorem fillLine_upto {E : Env} (pr : Bool) (l : Bytes × Byte) {b b' : Build E} (h : UptoBuild b b') :
    RelRes UptoBuild (fillLine E pr b l) (fillLine E pr b' l) := by
  unfold fillLine
  refine RelRes.bind (RelRes.refl (R := Eq) (fun _ => rfl) _) ?_
  rintro x _ rfl
  unfold Build.enter
  refine RelRes.bind (apply_upto h ..) fun b b' h => ?_
  refine RelRes.bind (RelRes.refl (R := Eq) (fun _ => rfl) _) ?_
  rintro cl _ rfl
  exact store_upto h ..

theorem store_inert {E : Env} (b : Build E) {f : Filter} {id : ListId} (h : id = .cosmetic ∨ f.domainList = none) :
    b.store f (.list id) = .ok { b with arr := fun i => if i = id then b.arr i ++ [f] else b.arr i } := by
  simp only [Build.store]
  cases hd : id.domId with
  | none => rfl
  | some dd =>
    have hn : f.domainList = none := by
      rcases h with rfl | h
      · cases hd
      · exact h
    unfold addFilterDomainsToHashSet
    rw [hn]
    simp only [Res.pure_eq, Res.bind_ok]
    congr 1
    congr 1
    funext i
    split
    · rename_i h; rw [h]
    · rfl

/-- a line without a network rule adds a rule which never applies, if any -/
theorem fillLine_silent {E : Env} (pr : Bool) (b : Build E) {line : Bytes} (h : Mute line) : ∃ A, fillLine E pr b (line, 0) = .ok { b with arr := A } ∧
      ∀ id, id ≠ .cosmetic → id ≠ .html → A id = b.arr id ∨ ∃ f, Inert f ∧ A id = b.arr id ++ [f] := by
  obtain ⟨f, h1, h2⟩ := parse_silent h.2 h.1 E.bad pr true
  unfold fillLine Build.enter
  rw [h1, Res.bind_ok]
  simp only [Build.apply, Res.pure_eq, Res.bind_ok]
  rcases h2 with h2 | ⟨id, h2, h3⟩
  · rw [h2]
    exact ⟨b.arr, rfl, fun _ _ _ => .inl rfl⟩
  · rw [h2]
    rw [Res.bind_ok, store_inert b (h3.imp (fun h => h) fun h => h.2)]
    refine ⟨_, rfl, fun i hi1 hi2 => ?_⟩
    by_cases h : i = id
    · subst h
      rcases h3 with rfl | ⟨h3, -⟩
      · exact absurd rfl hi1
      · exact .inr ⟨f, h3, by simp⟩
    · exact .inl (by simp [h])

theorem fill_upto {E : Env} (pr : Bool) (keep : Bytes → Bool) :
    ∀ (ls ls' : List Bytes), (∀ l ∈ ls, keep l = false → Mute l) → (∀ l ∈ ls', keep l = false → Mute l) →
      ls.filter keep = ls'.filter keep → ∀ {b b' : Build E}, UptoBuild b b' →
      RelRes UptoBuild (fill E pr (nul ls) b) (fill E pr (nul ls') b') := by
  have snoc : ∀ {l l' : List Filter} {f : Filter}, Inert f → UptoInert l l' → UptoInert (l ++ [f]) l' ∧ UptoInert l (l' ++ [f]) := by
    intro l l' f hf h
    constructor
    · simpa using h.append (.left hf .nil)
    · simpa using h.append (.right hf .nil)
  intro ls
  induction ls with
  | nil =>
    intro ls' _ hc' he
    induction ls' with
    | nil => intro b b' h; exact .ok h
    | cons l' ls' ih =>
      intro b b' h
      have hl : keep l' = false := by
        cases hk' : keep l' with
        | false => rfl
        | true => rw [List.filter_cons_of_pos hk'] at he; cases he
      rw [List.filter_cons_of_neg (by simp [hl])] at he
      obtain ⟨A, hA, hA'⟩ := fillLine_silent pr b' (hc' l' (by simp) hl)
      simp only [nul, List.map_cons, List.map_nil, fill] at ih ⊢
      rw [hA, Res.bind_ok]
      refine ih (fun l hl => hc' l (by simp [hl])) he ?_
      obtain ⟨B, rfl, hB⟩ := h
      refine ⟨A, rfl, fun id h1 h2 => ?_⟩
      rcases hA' id h1 h2 with e | ⟨f, hf, e⟩
      · rw [e]; exact hB id h1 h2
      · rw [e]; exact (snoc hf (hB id h1 h2)).2
  | cons l ls ih =>
    intro ls' hc hc' he
    cases hl : keep l with
    | false =>
      intro b b' h
      rw [List.filter_cons_of_neg (by simp [hl])] at he
      obtain ⟨A, hA, hA'⟩ := fillLine_silent pr b (hc l (by simp) hl)
      have ih := ih ls' (fun l hl => hc l (by simp [hl])) hc' he (b := { b with arr := A }) (b' := b') ?_
      · simp only [nul, List.map_cons, fill] at ih ⊢
        rw [hA, Res.bind_ok]
        exact ih
      · obtain ⟨B, rfl, hB⟩ := h
        refine ⟨B, rfl, fun id h1 h2 => ?_⟩
        show UptoInert (A id) (B id)
        rcases hA' id h1 h2 with e | ⟨f, hf, e⟩
        · rw [e]; exact hB id h1 h2
        · rw [e]; exact (snoc hf (hB id h1 h2)).1
    | true =>
      rw [List.filter_cons_of_pos hl] at he
      induction ls' with
      | nil => cases he
      | cons l' ls' ih' =>
        intro b b' h
        cases hl' : keep l' with
        | false =>
          rw [List.filter_cons_of_neg (by simp [hl'])] at he
          obtain ⟨A, hA, hA'⟩ := fillLine_silent pr b' (hc' l' (by simp) hl')
          have ih' := ih' (fun l hl => hc' l (by simp [hl])) he (b := b) (b' := { b' with arr := A }) ?_
          · simp only [nul, List.map_cons, fill] at ih' ⊢
            rw [hA, Res.bind_ok]
            exact ih'
          · obtain ⟨B, rfl, hB⟩ := h
            refine ⟨A, rfl, fun id h1 h2 => ?_⟩
            rcases hA' id h1 h2 with e | ⟨f, hf, e⟩
            · rw [e]; exact hB id h1 h2
            · rw [e]; exact (snoc hf (hB id h1 h2)).2
        | true =>
          rw [List.filter_cons_of_pos hl', List.cons.injEq] at he
          obtain ⟨rfl, he⟩ := he
          simp only [nul, List.map_cons, fill]
          exact RelRes.bind (fillLine_upto pr _ h) fun b b' h =>
            ih ls' (fun l hl => hc l (by simp [hl])) (fun l hl => hc' l (by simp [hl])) he h

/-- the counters of host rules are the same -/
def SameHosts (n n' : Counts) : Prop := n'.hostAnchored = n.hostAnchored ∧ n'.hostAnchoredException = n.hostAnchoredException

theorem bump_hosts {n n' : Counts} (h : SameHosts n n') (cl : Class) : SameHosts (n.bump cl) (n'.bump cl) := by
  obtain ⟨h1, h2⟩ := h
  cases cl <;> simp [Counts.bump, SameHosts, h1, h2]

theorem lineClass_silent {bad : List Bytes} {line : Bytes} (h : Mute line) :
    ∃ cl, lineClass bad (line, 0) = .ok cl ∧ (cl = .drop ∨ ∃ id, cl = .list id) := by
  obtain ⟨f, h1, h2⟩ := parse_silent h.2 h.1 bad false false
  unfold lineClass
  rw [h1, Res.bind_ok]
  rcases h2 with h2 | ⟨id, h2, -⟩
  · exact ⟨_, h2, .inl rfl⟩
  · exact ⟨_, h2, .inr ⟨id, rfl⟩⟩

theorem countPass_upto {bad : List Bytes} (keep : Bytes → Bool) (ls : List Bytes)
    (hc : ∀ l ∈ ls, keep l = false → Mute l) {n n' : Counts} (h : SameHosts n n') :
    RelRes SameHosts (countPass bad (nul ls) n) (countPass bad (nul (ls.filter keep)) n') := by
  induction ls generalizing n n' with
  | nil => exact .ok h
  | cons l ls ih =>
    replace ih := fun {n n'} => @ih (fun l hl => hc l (by simp [hl])) n n'
    cases hl : keep l with
    | true =>
      rw [List.filter_cons_of_pos hl]
      simp only [nul, List.map_cons] at ih ⊢
      rw [countPass_cons, countPass_cons]
      refine RelRes.bind (RelRes.refl (R := Eq) (fun _ => rfl) _) ?_
      rintro cl _ rfl
      exact ih (bump_hosts h cl)
    | false =>
      rw [List.filter_cons_of_neg (by simp [hl])]
      obtain ⟨cl, h1, h2⟩ := lineClass_silent (bad := bad) (hc l (by simp) hl)
      simp only [nul, List.map_cons] at ih ⊢
      rw [countPass_cons, h1, Res.bind_ok]
      refine ih ?_
      rcases h2 with rfl | ⟨id, rfl⟩
      · exact h
      · exact h

/-- lists with the same lines, apart from lines without a network rule -/
def SameText (A B : Bytes) : Prop :=
  ∃ keep : Bytes → Bool, (∀ l ∈ lines A, keep l = false → Mute l) ∧ (∀ l ∈ lines B, keep l = false → Mute l) ∧
    (lines A).filter keep = (lines B).filter keep

theorem sameText_refl (A : Bytes) : SameText A A := ⟨fun _ => true, fun _ _ h => (by cases h), fun _ _ h => (by cases h), rfl⟩

theorem sameText_of {A B : Bytes} (h : SameRules A B) : SameText A B := by
  obtain ⟨hA, hB, keep, hk, he⟩ := h
  exact ⟨keep, fun l hl h => ⟨hk l h, lines_clean hA l hl⟩, fun l hl h => ⟨hk l h, lines_clean hB l hl⟩, he⟩

theorem parse_upto {E : Env} {c d : Client E} (h : UptoSilent c d) {A B : Bytes} (hr : SameText A B) (pr : Bool) :
    RelRes UptoSilent (c.parse A pr) (d.parse B pr) := by
  obtain ⟨keep, hA, hB, he⟩ := hr
  obtain ⟨L, rfl, hL⟩ := h
  rw [parse_lines, parse_lines]
  have cA := countPass_upto (bad := E.bad) keep (lines A) hA (n := {}) (n' := {}) ⟨rfl, rfl⟩
  have cB := countPass_upto (bad := E.bad) keep (lines B) hB (n := {}) (n' := {}) ⟨rfl, rfl⟩
  rw [he] at cA
  have hn : RelRes SameHosts (countPass E.bad (nul (lines A)) {}) (countPass E.bad (nul (lines B)) {}) := by
    revert cA cB
    generalize countPass E.bad (nul ((lines B).filter keep)) {} = x
    generalize countPass E.bad (nul (lines A)) {} = y
    generalize countPass E.bad (nul (lines B)) {} = z
    intro cA cB
    cases cA with
    | ub u => cases cB; exact .ub u
    | ok h => cases cB with | ok h' => exact .ok ⟨h'.1.symm.trans h.1, h'.2.symm.trans h.2⟩
  refine RelRes.bind hn fun n n' hn => ?_
  refine RelRes.bind (fill_upto pr keep _ _ hA hB he (b := c.startBuild)
    (b' := ({ c with lists := L } : Client E).startBuild) ⟨L, rfl, hL⟩) fun b b' hb => ?_
  obtain ⟨M, rfl, hM⟩ := hb
  refine .ok ⟨M, ?_, hM⟩
  simp only [Client.finish, hn.1, hn.2]

/-! ### operations -/

/-- the same answer, and corresponding clients -/
def UptoStep {E : Env} (x y : Answer × Client E) : Prop := x.1 = y.1 ∧ UptoSilent x.2 y.2

theorem step_upto {E : Env} {c d : Client E} (h : UptoSilent c d) {op op' : Op} (ho : SameCall op op') :
    RelRes UptoStep (step c op) (step d op') := by
  cases ho with
  | load pr hr => exact RelRes.map (parse_upto h (sameText_of hr) pr) fun a b hab => ⟨rfl, hab⟩
  | same =>
    cases op with
    | parse input pr => exact RelRes.map (parse_upto h (sameText_refl input) pr) fun a b hab => ⟨rfl, hab⟩
    | «matches» url co dom =>
      simp only [step]
      rw [query_upto h]
      refine RelRes.map (RelRes.refl (R := Eq) (fun _ => rfl) _) ?_
      rintro o _ rfl
      obtain ⟨L, rfl, hL⟩ := h
      exact ⟨rfl, L, rfl, hL⟩
    | find url co dom =>
      simp only [step]
      rw [find_upto h]
      refine RelRes.map (RelRes.refl (R := Eq) (fun _ => rfl) _) ?_
      rintro o _ rfl
      exact ⟨rfl, h⟩
    | addTag t =>
      obtain ⟨L, rfl, hL⟩ := h
      refine .ok ⟨rfl, ?_⟩
      unfold Client.addTag
      by_cases ht : c.tagExists t = true
      · rw [if_pos ht, if_pos (show ({ c with lists := L } : Client E).tagExists t = true from ht)]
        exact ⟨L, rfl, hL⟩
      · rw [if_neg ht, if_neg (show ¬ ({ c with lists := L } : Client E).tagExists t = true from ht)]
        exact ⟨L, rfl, hL⟩
    | removeTag t => obtain ⟨L, rfl, hL⟩ := h; exact .ok ⟨rfl, L, rfl, hL⟩
    | tagExists t => obtain ⟨L, rfl, hL⟩ := h; exact .ok ⟨rfl, L, rfl, hL⟩
    | clear => obtain ⟨L, rfl, hL⟩ := h; exact .ok ⟨rfl, UptoSilent.refl _⟩
    | enableBadFingerprintDetection =>
      obtain ⟨L, rfl, hL⟩ := h
      refine .ok ⟨rfl, ?_⟩
      simp only [Client.enableBadFingerprintDetection]
      split
      · exact ⟨L, rfl, hL⟩
      · exact ⟨L, rfl, hL⟩

theorem run_upto {E : Env} {ops ops' : List Op} (h : SameCalls ops ops') {c d : Client E} (hc : UptoSilent c d) :
    RelRes (fun x y : List Answer × Client E => x.1 = y.1 ∧ UptoSilent x.2 y.2) (run c ops) (run d ops') := by
  induction h generalizing c d with
  | nil => exact .ok ⟨rfl, hc⟩
  | cons ho _ ih =>
    simp only [run]
    refine RelRes.bind (step_upto hc ho) ?_
    rintro ⟨a, c1⟩ ⟨_, d1⟩ ⟨rfl, h1⟩
    refine RelRes.bind (ih h1) ?_
    rintro ⟨as, c2⟩ ⟨_, d2⟩ ⟨rfl, h2⟩
    exact .ok ⟨rfl, h2⟩

end AdBlock
