import Verif.Lemmas.Build
import Verif.Props.ParseRule
/-! Memory safety of parsing a line. -/
namespace AdBlock
open Spec

theorem anchoredHost_facts (p : Bytes) :
    (∀ c ∈ anchoredHost p, ¬ IsSep c) ∧
    (ch%'|' ∉ (p.takeWhile fun c => decide (¬ IsSep c)).dropLast → ch%'|' ∉ anchoredHost p) := by
  obtain ⟨rest, he, hr, hns⟩ := takeWhile_split p
  generalize p.takeWhile (fun c => decide (¬ IsSep c)) = h at he hns
  subst he
  have hf := findFirstSeparatorChar_spec hns hr
  unfold anchoredHost
  simp only [hf]
  split
  · rename_i hc
    rw [List.take_append_of_le_length (by omega), ← List.dropLast_eq_take]
    exact ⟨fun c hc => hns c (List.dropLast_subset _ hc), id⟩
  · rename_i hc
    rw [List.take_left]
    refine ⟨hns, fun hb hm => ?_⟩
    rcases List.eq_nil_or_concat h with rfl | ⟨l, a, rfl⟩
    · simp at hm
    · simp only [List.concat_eq_append, List.dropLast_concat] at hb hm
      rcases List.mem_append.1 hm with hm | hm
      · exact hb hm
      · simp only [List.mem_singleton] at hm
        subst hm
        apply hc
        simp

theorem mem_splitOn_infix {sep : Byte} {s : Bytes} {o : Bytes} (h : o ∈ splitOn sep s) :
    ∃ a b, s = a ++ o ++ b ∧ sep ∉ o ∧ (b = [] ∨ b.head? = some sep) := by
  induction s generalizing o with
  | nil => simp only [splitOn, List.mem_singleton] at h; subst h; exact ⟨[], [], by simp⟩
  | cons c s ih =>
    by_cases hc : c = sep
    · subst hc
      rw [splitOn_cons_sep] at h
      rcases List.mem_cons.1 h with rfl | h
      · exact ⟨[], c :: s, by simp⟩
      · obtain ⟨a, b, h1, h2, h3⟩ := ih h
        exact ⟨c :: a, b, by rw [h1]; simp, h2, h3⟩
    · obtain ⟨q, qs, hq⟩ := List.exists_cons_of_ne_nil (splitOn_ne_nil sep s)
      rw [splitOn_cons_of_ne hc hq] at h
      rcases List.mem_cons.1 h with rfl | h
      · -- the first piece is a prefix
        have key : ∀ (s : Bytes) q qs, splitOn sep s = q :: qs → ∃ b, s = q ++ b ∧ sep ∉ q ∧ (b = [] ∨ b.head? = some sep) := by
          intro s
          induction s with
          | nil => intro q qs h; cases h; exact ⟨[], by simp⟩
          | cons d s ih2 =>
            intro q qs h
            by_cases hd : d = sep
            · subst hd; rw [splitOn_cons_sep] at h; cases h; exact ⟨d :: s, by simp⟩
            · obtain ⟨q', qs', hq'⟩ := List.exists_cons_of_ne_nil (splitOn_ne_nil sep s)
              rw [splitOn_cons_of_ne hd hq'] at h
              cases h
              obtain ⟨b, h1, h2, h3⟩ := ih2 q' _ hq'
              exact ⟨b, by rw [h1]; simp, by simp [h2, Ne.symm hd], h3⟩
        obtain ⟨b, h1, h2, h3⟩ := key s q qs hq
        exact ⟨[], b, by rw [h1]; simp, by simp [h2, Ne.symm hc], h3⟩
      · obtain ⟨a, b, h1, h2, h3⟩ := ih (o := o) (by rw [hq]; simp [h])
        exact ⟨c :: a, b, by rw [h1]; simp, h2, h3⟩

/-- a domain list comes from a `domain=` option -/
theorem foldl_domainList (l : List Bytes) (f : Filter) {d : Bytes}
    (h : (l.foldl Filter.parseOption f).domainList = some d) :
    f.domainList = some d ∨ ∃ o ∈ l, o = bs%"domain=" ++ d ∨ o = bs%"~domain=" ++ d := by
  induction l generalizing f with
  | nil => exact .inl h
  | cons o l ih =>
    rw [List.foldl_cons] at h
    rcases ih _ h with h | ⟨o', ho', h⟩
    · by_cases ha : o.head? = some ch%'~'
      · obtain ⟨o', rfl⟩ : ∃ o', o = ch%'~' :: o' := by cases o <;> simp_all
        rw [parseOption_anti] at h
        split at h
        · rename_i hp
          obtain ⟨r, rfl⟩ := hp
          cases h
          exact .inr ⟨_, List.mem_cons_self, .inr (by simp)⟩
        · split at h <;> exact .inl h
      · rw [parseOption_plain ha] at h
        split at h
        · rename_i hp
          obtain ⟨r, rfl⟩ := hp
          cases h
          exact .inr ⟨_, List.mem_cons_self, .inl (by simp)⟩
        · split at h <;> exact .inl h
    · exact .inr ⟨o', by simp [ho'], h⟩

/-- the domain list of a rule is written in the line -/
def DomainFrom (line : Bytes) (f : Filter) : Prop :=
  ∀ d, f.domainList = some d → ∃ a b, line = a ++ bs%"domain=" ++ d ++ b ∧ ch%',' ∉ d ∧ (b = [] ∨ b.head? = some ch%',')

theorem parseOptions_from {line a p : Bytes} {f : Filter} (hl : line = a ++ p) (hp : ∀ c ∈ p, c ≠ 0 ∧ c ≠ 13 ∧ c ≠ 10)
    (hf : f.domainList = none) : DomainFrom line (f.parseOptions p) := by
  intro d hd
  rw [parseOptions_eq f p hp] at hd
  rcases foldl_domainList _ _ hd with h | ⟨o, ho, h⟩
  · simp [hf] at h
  · obtain ⟨x, y, h1, h2, h3⟩ := mem_splitOn_infix ho
    rcases h with rfl | rfl
    · exact ⟨a ++ x, y, by rw [hl, h1]; simp, fun h => h2 (by simp [h]), h3⟩
    · exact ⟨a ++ x ++ bs%"~", y, by rw [hl, h1]; simp, fun h => h2 (by simp [h]), h3⟩

structure SafeInv (line cur : Bytes) (pos : Nat) (s : PLocals) : Prop where
  rest : cur = line.drop pos
  fresh : s.st = .start ∨ s.st = .pastWhitespace ∨ s.st = .oneAt → ch%'|' ∉ line.take pos
  bar : s.st = .oneBar → ∃ a, line.take pos = a ++ [ch%'|'] ∧ ch%'|' ∉ a
  host : has s.f.filterType FTHostAnchored = true → ∃ h1 h2, s.f.host = some (h1 ++ h2) ∧ h1.length ≤ s.data.length ∧
    h2 <+: cur ∧ ch%'|' ∉ h2 ∧ (∀ c ∈ h2, ¬ IsSep c) ∧ (h2 ≠ [] → s.st = .data)
  dom : s.st ≠ .dataOnly → s.f.domainList = none

def SafePost (line : Bytes) : LoopOut → Prop
  | .fin s => (has s.f.filterType FTHostAnchored = true → ∃ h, s.f.host = some h ∧ h.length ≤ s.data.length) ∧
      (s.st = .dataOnly ∨ DomainFrom line s.f)
  | .ret f => has f.filterType FTHostAnchored = false ∧ f.domainList = none

theorem parseLoop_safe {line : Bytes} {t : Byte} (ht : Term t) {pr : Bool} {o : LoopOut}
    (hclean : ∀ c ∈ line, c ≠ 0 ∧ c ≠ 10 ∧ c ≠ 13) (hlen : line.length ≤ 2047) (hhost : HostBarFree line)
    (h : parseLoop line t pr line 0 {} = .ok o) : SafePost line o := by
  refine parseLoop_inv (P := SafeInv line) (Q := SafePost line) ?_ ?_ ?_ ?_ h
  · intro pos s hs
    refine ⟨fun ha => ?_, ?_⟩
    · obtain ⟨h1, h2, e1, e2, e3, _⟩ := hs.host ha
      have : h2 = [] := List.prefix_nil.1 e3
      subst this
      exact ⟨h1, by simpa using e1, e2⟩
    · by_cases hd : s.st = .dataOnly
      · exact .inl hd
      · right; intro d hd'; rw [hs.dom hd] at hd'; cases hd'
  · intro c p pos s hs hp
    have := congrArg List.length hs.rest
    simp at this
    omega
  · intro c p pos s n hs _ hn
    have hp1 : p = line.drop (pos + 1) := by
      have := congrArg (List.drop 1) hs.rest
      simpa [List.drop_drop] using this
    have htake : line.take (pos + 1) = line.take pos ++ [c] := by
      have hg : line[pos]? = some c := by
        have := congrArg (fun l => l[0]?) hs.rest
        simpa using this.symm
      rw [List.take_add_one, hg]; rfl
    have hline : line = line.take pos ++ c :: p := by
      conv => lhs; rw [← List.take_append_drop pos line]
      rw [← hs.rest]
    unfold parseStep at hn
    split at hn
    · rename_i hdo
      cases hn
      exact { rest := hp1
              fresh := by simp [PLocals.push, hdo]
              bar := by simp [PLocals.push, hdo]
              host := fun h => by
                obtain ⟨h1, h2, e1, e2, e3, e4, e5, e6⟩ := hs.host h
                have : h2 = [] := by
                  by_cases hh : h2 = []
                  · exact hh
                  · rw [hdo] at e6; simpa using e6 hh
                subst this
                exact ⟨h1, [], e1, by simp [PLocals.push]; omega, by simp, e4, e5, by simp⟩
              dom := by simp [PLocals.push, hdo] }
    · rename_i hdo
      have hcase := parseChar_cases line ht pr c p (s.bar c)
      rw [hn] at hcase
      -- the state after the check for a single bar
      have hu : SafeInv line (c :: p) pos (s.bar c) ∧ ((s.bar c).st = .oneBar → c = ch%'|') ∧ (s.bar c).st ≠ .dataOnly := by
        unfold PLocals.bar
        split
        · rename_i hb
          refine ⟨{ rest := hs.rest, fresh := by simp, bar := by simp, host := ?_, dom := fun _ => hs.dom hdo }, by simp, by simp⟩
          intro ha
          simp only [Filter.addType, has_or_iff] at ha
          rcases ha with ha | ha
          · obtain ⟨h1, h2, e1, e2, e3, e4, e5, e6⟩ := hs.host ha
            exact ⟨h1, h2, e1, e2, e3, e4, e5, fun _ => rfl⟩
          · exact absurd ha (by decide)
        · rename_i hb
          refine ⟨hs, fun h => ?_, hdo⟩
          by_cases hc : c = ch%'|'
          · exact hc
          · exact absurd ⟨h, hc⟩ hb
      generalize s.bar c = u at hcase hu
      obtain ⟨hu, hub, hud⟩ := hu
      have hdom := hu.dom hud
      -- the host clause when the character is not taken as text
      have nohost : (c = ch%'|' ∨ IsSep c ∨ u.st ≠ .data) → has u.f.filterType FTHostAnchored = true →
          ∃ h, u.f.host = some h ∧ h.length ≤ u.data.length := by
        intro hc ha
        obtain ⟨h1, h2, e1, e2, e3, e4, e5, e6⟩ := hu.host ha
        have : h2 = [] := by
          cases h2 with
          | nil => rfl
          | cons d h2 =>
            have hd : d = c := (List.cons_prefix_cons.1 e3).1
            subst hd
            rcases hc with hc | hc | hc
            · exact absurd (by rw [hc]; simp) e4
            · exact absurd hc (e5 d (by simp))
            · exact absurd (e6 (by simp)) hc
        subst this
        exact ⟨h1, by simpa using e1, e2⟩
      have push : ∀ v : PLocals, v.st ≠ .start ∨ v.st ≠ .start → v.f = u.f → v.data = u.data ++ [c] → c ≠ ch%'|' →
          (v.st = u.st ∨ v.st = .data) → SafeInv line p (pos + 1) v := by
        intro v _ hf hdt hc hst
        exact { rest := hp1
                fresh := fun h => by
                  have : u.st = .start ∨ u.st = .pastWhitespace ∨ u.st = .oneAt := by
                    rcases hst with e | e
                    · rwa [e] at h
                    · rw [e] at h; simp at h
                  rw [htake]
                  simp only [List.mem_append, List.mem_singleton, not_or]
                  exact ⟨hu.fresh this, Ne.symm hc⟩
                bar := fun h => by
                  rcases hst with e | e
                  · rw [e] at h; exact absurd (hub h) hc
                  · rw [e] at h; cases h
                host := fun ha => by
                  rw [hf] at ha ⊢
                  obtain ⟨h1, h2, e1, e2, e3, e4, e5, e6⟩ := hu.host ha
                  rw [hdt]
                  cases h2 with
                  | nil => exact ⟨h1, [], e1, by simp; omega, by simp, by simp, by simp, by simp⟩
                  | cons d h2 =>
                    obtain ⟨rfl, e3'⟩ := List.cons_prefix_cons.1 e3
                    refine ⟨h1 ++ [d], h2, by simp [e1], by simp; omega, e3', fun h => e4 (by simp [h]), fun c hc => e5 c (by simp [hc]), fun _ => ?_⟩
                    rcases hst with e | e
                    · rw [e]; exact e6 (by simp)
                    · exact e
                dom := fun _ => by rw [hf]; exact hdom }
      have asHost : ∀ {P : Bytes → Prop} {n : Nat} {st : FPState}, (∃ h, u.f.host = some h ∧ h.length ≤ n) →
          ∃ h1 h2, u.f.host = some (h1 ++ h2) ∧ h1.length ≤ n ∧ h2 <+: p ∧ ch%'|' ∉ h2 ∧ (∀ c ∈ h2, ¬ IsSep c) ∧ (h2 ≠ [] → st = FPState.data) := by
        rintro _ n st ⟨h, e1, e2⟩
        exact ⟨h, [], by simpa using e1, e2, by simp, by simp, by simp, by simp⟩
      cases hcase with
      | bar1 h1 h2 =>
        have hst : u.st = .start ∨ u.st = .pastWhitespace := by
          simpa [FPState.fresh] using h2
        exact { rest := hp1, fresh := by simp
                bar := fun _ => ⟨line.take pos, by rw [htake, h1], hu.fresh (by rcases hst with h | h <;> simp [h])⟩
                host := fun ha => asHost (P := fun _ => True) (nohost (.inl h1) ha), dom := fun _ => hdom }
      | bar2 h1 h2 =>
        obtain ⟨a, ha1, ha2⟩ := hu.bar h2
        have hb := hhost a p (by rw [hline, ha1, h1]; simp) ha2
        have hf := anchoredHost_facts p
        exact { rest := hp1, fresh := by simp [PLocals.anchored], bar := by simp [PLocals.anchored]
                host := fun _ => ⟨[], anchoredHost p, rfl, by simp, anchoredHost_prefix p, hf.2 hb, hf.1, fun _ => rfl⟩
                dom := fun _ => hdom }
      | barR h1 h2 =>
        refine { rest := hp1, fresh := by simp, bar := by simp, host := fun ha => ?_, dom := fun _ => hdom }
        simp only [Filter.addType, has_or_iff] at ha
        rcases ha with ha | ha
        · exact asHost (P := fun _ => True) (nohost (.inl h1) ha)
        · exact absurd ha (by decide)
      | at1 h1 h2 =>
        have hst : u.st = .start ∨ u.st = .pastWhitespace := by
          simpa [FPState.fresh] using h2
        refine { rest := hp1, fresh := fun _ => ?_, bar := by simp, host := fun ha => ?_, dom := fun _ => hdom }
        · rw [htake, h1]
          simp only [List.mem_append, List.mem_singleton, not_or]
          exact ⟨hu.fresh (by rcases hst with h | h <;> simp [h]), by decide⟩
        · exact asHost (P := fun _ => True) (nohost (.inr (.inr (by rcases hst with h | h <;> simp [h]))) ha)
      | at2 h1 h2 =>
        refine { rest := hp1, fresh := fun _ => ?_, bar := by simp
                 host := fun ha => absurd (show has FTException FTHostAnchored = true from ha) (by decide), dom := fun _ => hdom }
        rw [htake, h1]
        simp only [List.mem_append, List.mem_singleton, not_or]
        exact ⟨hu.fresh (by simp [h2]), by decide⟩
      | comment h1 h2 => exact ⟨(show has FTComment FTHostAnchored = false by decide), hdom⟩
      | regex f h1 h2 h3 =>
        unfold regexFilter at h3
        split at h3
        · cases h3
          exact ⟨(show has FTRegex FTHostAnchored = false by decide), hdom⟩
        · cases h3
      | white h1 h2 =>
        refine { rest := hp1, fresh := fun h => ?_, bar := by simp [h2]
                 host := fun ha => asHost (P := fun _ => True) (nohost (.inr (.inr (by simp [h2]))) ha), dom := fun _ => hdom }
        rw [htake]
        simp only [List.mem_append, List.mem_singleton, not_or]
        refine ⟨hu.fresh h, ?_⟩
        rcases h1 with rfl | rfl | rfl | rfl <;> decide
      | push h1 h2 h3 => exact push _ (.inl h3) rfl rfl h1 (.inl rfl)
      | data h1 h2 h3 => exact push _ (.inl (by simp [PLocals.push])) rfl rfl h1 (.inr rfl)
      | html h1 h2 =>
        exact { rest := by rw [hp1, List.drop_drop], fresh := by simp, bar := by simp
                host := fun ha => absurd (show has FTHTMLFiltering FTHostAnchored = true from ha) (by decide), dom := by simp }
      | opts h1 h2 =>
        have hc := parseOptions_core u.f p
        simp only [Filter.core, Core.mk.injEq] at hc
        refine ⟨fun ha => ?_, .inr ?_⟩
        · simp only [PLocals.dollar] at ha ⊢
          rw [hc.2.1] at ha
          rw [hc.2.2.2.2.2]
          exact nohost (.inr (.inl (by rw [h1]; decide))) ha
        · exact parseOptions_from (a := line.take pos ++ [c]) (by conv => lhs; rw [hline]
                                                                  simp)
            (fun d hd => by
              have := hclean d (by rw [hline]; simp [hd])
              exact ⟨this.1, this.2.2, this.2.1⟩) hdom
      | cosmetic m h1 h2 h3 =>
        refine { rest := by rw [hp1, List.drop_drop], fresh := by simp, bar := by simp, host := fun ha => ?_, dom := by simp }
        have : has m FTHostAnchored = true := ha
        rw [h3] at this
        split at this <;> exact absurd this (by decide)
  · exact { rest := rfl, fresh := by simp, bar := by simp, host := fun ha => absurd ha (by decide), dom := fun _ => rfl }

/-! #### the operations on a parsed rule -/

theorem getFingerprint_ok (bad : List Bytes) {f : Filter} (hp : Parsed f)
    (hnone : f.data = none → has f.filterType FTHostAnchored = false)
    (hhost : has f.filterType FTHostAnchored = true → ∀ h pat, f.host = some h → f.data = some (cstr pat) →
      h.length ≤ pat.length) : ∃ fp, getFingerprint bad f = .ok fp := by
  unfold getFingerprint
  split
  · exact ⟨_, rfl⟩
  rcases hp.text with hn | ⟨pat, h0, hdat⟩
  · rw [hnone hn, hn]; exact ⟨_, rfl⟩
  · have h1 : cstrAt (cstr pat) = .ok pat := cstrAt_cstr h0 []
    rw [hdat]
    cases ha : has f.filterType FTHostAnchored with
    | false => simp [h1]
    | true =>
      have hs := hp.host ha
      cases hh : f.host with
      | none => rw [hh] at hs; cases hs
      | some h =>
        have hle := hhost ha h pat hh hdat
        have h2 : cstrAt ((cstr pat).drop h.length) = .ok (pat.drop h.length) := by
          simp only [cstr]
          rw [List.drop_append_of_le_length hle, cstrAt_cstr (fun hm => h0 (List.mem_of_mem_drop hm))]
        simp only [h1, h2, ↓reduceIte, Res.map_ok, Res.bind_ok]
        cases getFingerprintStr bad (pat.drop h.length) <;> exact ⟨_, rfl⟩

theorem copy_ok {f : Filter} (hp : Parsed f) {pat : Bytes} (h0 : 0 ∉ pat) (hd : f.data = some (cstr pat)) :
    f.copy = .ok { f with dataLen := some pat.length, data := some pat } := by
  unfold Filter.copy
  rw [hp.dataLen, hd, hp.borrowed]
  simp only [cstr, strlen_cstr h0, Res.map_ok, Res.bind_ok]
  simp

theorem addDomains_ok (E : Env) (ds : List Bytes) (s : HSet Bytes) (h : ∀ d ∈ ds, d.length ≤ 1024) :
    ∃ s', addDomains E ds s = .ok s' := by
  induction ds generalizing s with
  | nil => exact ⟨s, rfl⟩
  | cons d ds ih =>
    have hd := h d (by simp)
    have ih := fun s => ih s (fun d hd => h d (by simp [hd]))
    unfold addDomains
    split
    · rw [if_neg (by unfold domainBuffer; omega)]; exact ih _
    · split
      · rw [if_neg (by unfold domainBuffer; omega)]; exact ih _
      · exact ih _

theorem ex_ite {α β : Type} {c : Prop} [Decidable c] {a b : Res α} {g : α → β} (ha : ∃ x, a = .ok x) (hb : ∃ x, b = .ok x) :
    ∃ x, (if c then a else b) = .ok x := by
  by_cases h : c
  · rw [if_pos h]; exact ha
  · rw [if_neg h]; exact hb

/-- once the fingerprint of a rule can be computed, so can its class -/
theorem classify_ok {bad : List Bytes} {f : Filter} {fp : Option Bytes} (hfp : getFingerprint bad f = .ok fp) :
    ∃ cl, classify bad f = .ok cl := by
  unfold classify
  rw [hfp]
  simp only [Res.bind_ok]
  repeat' first | exact ⟨_, rfl⟩ | refine ex_ite (g := id) ?_ ?_

theorem finishWith_ok {bad : List Bytes} {full : Bool} {f : Filter} {fp : Option Bytes} (hfp : getFingerprint bad f = .ok fp) :
    ∃ e, finishWith bad full f = .ok (f, e) := by
  have key : ∀ {c : Prop} [Decidable c] {a b : Res (Filter × Effect)}, (∃ e, a = .ok (f, e)) → (∃ e, b = .ok (f, e)) →
      ∃ e, (if c then a else b) = .ok (f, e) := by
    intro c _ a b ha hb
    by_cases h : c
    · rw [if_pos h]; exact ha
    · rw [if_neg h]; exact hb
  unfold finishWith
  rw [hfp, Res.bind_ok]
  cases fp
  · repeat' first | exact ⟨_, rfl⟩ | refine key ?_ ?_
  · repeat' first | exact ⟨_, rfl⟩ | refine key ?_ ?_

/-- cosmetic rules are not indexed by domain -/
theorem classify_cosmetic {bad : List Bytes} {f : Filter} (hf : f.filterType = FTElementHiding ∨
    f.filterType = FTElementHidingException ∨ f.filterType = FTHTMLFiltering) :
    classify bad f = .ok .drop ∨ classify bad f = .ok (.list .cosmetic) ∨ classify bad f = .ok (.list .html) := by
  unfold classify
  by_cases h : f.hasUnsupportedOptions = true
  · rw [if_pos h]; exact .inl rfl
  · rw [if_neg h]
    rcases hf with hf | hf | hf <;> rw [hf]
    · exact .inr (.inl rfl)
    · exact .inr (.inl rfl)
    · exact .inr (.inr rfl)

/-- comments and empty rules are not stored -/
theorem classify_idle {bad : List Bytes} {f : Filter} (hf : f.filterType = FTEmpty ∨ f.filterType = FTComment) :
    classify bad f = .ok .drop := by
  unfold classify
  by_cases h : f.hasUnsupportedOptions = true
  · rw [if_pos h]; rfl
  · rw [if_neg h]
    rcases hf with hf | hf <;> rw [hf] <;> rfl

/-- what is known about a rule from a safe line -/
theorem parseFilter_safe (bad : List Bytes) {line : Bytes} {t : Byte} (ht : Term t) (pr full : Bool)
    (hclean : ∀ c ∈ line, c ≠ 0 ∧ c ≠ 10 ∧ c ≠ 13) (hlen : line.length ≤ 2047) (hhost : HostBarFree line) :
    ∃ f e cl, parseFilter bad line t pr full = .ok (f, e) ∧ classify bad f = .ok cl ∧
      (∀ id, cl = .list id → id.domId ≠ none → DomainFrom line f) := by
  obtain ⟨o, ho⟩ := parseLoop_ok line ht pr line 0 {}
  have h0 : 0 ∉ line := fun h => (hclean 0 h).1 rfl
  have hsafe := parseLoop_safe ht hclean hlen hhost ho
  have hpost := parseLoop_facts ht h0 ho
  cases o with
  | ret f =>
    have hpf : parseFilter bad line t pr full = .ok (f, .none) := by unfold parseFilter; rw [ho]; rfl
    have hp := (parseFilter_facts ht h0 hpf).1
    obtain ⟨fp, hfp⟩ := getFingerprint_ok bad hp (fun _ => hsafe.1) (fun h => by rw [hsafe.1] at h; cases h)
    obtain ⟨cl, hcl⟩ := classify_ok hfp
    exact ⟨f, _, cl, hpf, hcl, fun _ _ _ d hd => by rw [hsafe.2] at hd; cases hd⟩
  | fin s =>
    have hpf : parseFilter bad line t pr full = finishFilter bad line pr full s := by unfold parseFilter; rw [ho]; rfl
    by_cases hs : s.st = .start
    · refine ⟨{ s.f with filterType := FTEmpty }, .none, ?_⟩
      have hcl : classify bad { s.f with filterType := FTEmpty } = .ok .drop := classify_idle (.inl rfl)
      exact ⟨.drop, by rw [hpf]; simp [finishFilter, hs], hcl, fun id hid => by cases hid⟩
    · have hr := result_facts hpost hs line pr
      obtain ⟨fp, hfp⟩ := getFingerprint_ok bad hr.1 (fun h => absurd h hr.2) (by
        intro ha h pat hh hd
        obtain ⟨h', e1, e2⟩ := hsafe.1 ha
        have e3 : s.f.host = some h := hh
        rw [e1] at e3; cases e3
        have e4 : cstr s.data = cstr pat := Option.some.inj hd
        have := congrArg List.length e4
        simp [cstr] at this
        omega)
      obtain ⟨cl, hcl⟩ := classify_ok hfp
      obtain ⟨e, hfin⟩ := finishWith_ok (full := full) hfp
      refine ⟨s.result line pr, e, cl, by rw [hpf, finishFilter_eq _ _ _ _ hs]; exact hfin, hcl, fun id hid hd => ?_⟩
      rcases hsafe.2 with h | h
      · subst hid
        rcases classify_cosmetic (bad := bad) (f := s.result line pr) (hpost.only h) with h | h | h <;> rw [h] at hcl <;> cases hcl <;>
          exact absurd rfl hd
      · exact h

end AdBlock
