import Verif.Lemmas.Wrap
import Verif.Props.History
/-
The Node method `getFilters`: C57.
-/
namespace AdBlock
open Spec

section
variable {E : Env}

/-! ### calls of `getFilters` are not noticed by other calls -/

theorem getFilters_memo {w w' : NodeClient E} {name : Bytes} {rs : List Report} (h : w.getFilters name = .ok (rs, w')) :
    SameButLengths w.client w'.client := by
  unfold NodeClient.getFilters at h
  split at h
  · cases h; exact SameButLengths.refl _
  · rename_i id _
    obtain ⟨xs, h1, h⟩ := Res.bind_eq_ok.1 h
    cases h
    refine ⟨_, rfl, fun i => ?_⟩
    by_cases hi : i = id
    · subst hi; rw [if_pos rfl]; exact reportFilters_memo h1
    · rw [if_neg hi]; exact Pointwise.refl' Memo.refl _

theorem mapIdx_memo (p : Nat → Bool) (l : List Filter) :
    Pointwise Memo l (l.mapIdx fun i f => if p i then f.cached else f) := by
  induction l generalizing p with
  | nil => exact .nil
  | cons f l ih =>
    rw [List.mapIdx_cons]
    refine .cons ?_ (ih fun i => p (i + 1))
    split
    · exact memo_cached f
    · exact Memo.refl f

/-- the client after the program has stored some lengths -/
private def stored (w : NodeClient E) (p : ListId → Nat → Bool) : NodeClient E := { w with client := { w.client with
  lists := fun id => (w.client.lists id).mapIdx fun i f => if p id i then f.cached else f } }

private theorem stored_memo (w : NodeClient E) (p : ListId → Nat → Bool) : SameButLengths w.client (stored w p).client :=
  ⟨_, rfl, fun id => mapIdx_memo (p id) _⟩

theorem nodeRun_memo {ops : List NodeOp} : ∀ {w w' : NodeClient E} {c : Client E} {as : List NodeAnswer}, SameButLengths c w.client →
    nodeRun w ops = .ok (as, w') →
    ∃ as' c', run c (plainOps ops) = .ok (as', c') ∧ Pointwise SameAnswer as' (plainAnswers as) ∧ SameButLengths c' w'.client := by
  induction ops with
  | nil => intro w w' c as hc h; cases h; exact ⟨[], c, rfl, .nil, hc⟩
  | cons op ops ih =>
    intro w w' c as hc h
    obtain ⟨⟨a, w1⟩, h1, h⟩ := Res.bind_eq_ok.1 h
    obtain ⟨⟨as1, w2⟩, h2, h⟩ := Res.bind_eq_ok.1 h
    cases h
    cases op with
    | op o =>
      simp only [nodeStep] at h1
      obtain ⟨⟨b, d⟩, h3, h1⟩ := Res.map_eq_ok.1 h1
      cases h1
      have hs := step_memo hc o
      rw [h3] at hs
      generalize he : step c o = x at hs
      cases hs with
      | @ok a' _ ha =>
        obtain ⟨a', c1⟩ := a'
        obtain ⟨as', c', h4, h5, h6⟩ := ih (c := c1) ha.2 h2
        refine ⟨a' :: as', c', ?_, .cons ha.1 h5, h6⟩
        show run c (o :: plainOps ops) = _
        simp only [run]
        rw [he, Res.bind_ok]
        dsimp only
        rw [h4]
        rfl
    | getFilters name =>
      simp only [nodeStep] at h1
      obtain ⟨⟨b, d⟩, h3, h1⟩ := Res.map_eq_ok.1 h1
      cases h1
      have hm := hc.trans (getFilters_memo h3)
      obtain ⟨as', c', h4, h5, h6⟩ := ih (w := d) (as := as1) hm h2
      exact ⟨as', c', h4, h5, h6⟩
    | storeLengths p =>
      cases h1
      obtain ⟨as', c', h4, h5, h6⟩ := ih (w := stored w p) (as := as1) (hc.trans (stored_memo w p)) h2
      exact ⟨as', c', h4, h5, h6⟩

/-- **C57** `getFilters` has no influence on the answers to the other calls, in whatever order
they are made, and neither have the lengths the program stores while it matches: without them
the other calls give the same answers (up to these lengths). -/
theorem C57_getFilters_is_invisible {c : Client E} {w : NodeClient E} {ops : List NodeOp} {as : List NodeAnswer}
    (h : nodeRun { client := c } ops = .ok (as, w)) :
    ∃ as' c', run c (plainOps ops) = .ok (as', c') ∧ Pointwise SameAnswer as' (plainAnswers as) := by
  obtain ⟨as', c', h1, h2, _⟩ := nodeRun_memo (w := { client := c }) (SameButLengths.refl c) h
  exact ⟨as', c', h1, h2⟩

/-! ### what is reported -/

/-- the name of an array -/
def nameOf : ListId → Bytes
  | .filters => bs%"filters"
  | .cosmetic => bs%"cosmeticFilters"
  | .html => bs%"htmlFilters"
  | .exception => bs%"exceptionFilters"
  | .noFp => bs%"noFingerprintFilters"
  | .noFpException => bs%"noFingerprintExceptionFilters"
  | .noFpDomain => bs%"noFingerprintDomainOnlyFilters"
  | .noFpAntiDomain => bs%"noFingerprintAntiDomainOnlyFilters"
  | .noFpDomainException => bs%"noFingerprintDomainOnlyExceptionFilters"
  | .noFpAntiDomainException => bs%"noFingerprintAntiDomainOnlyExceptionFilters"

theorem listOfName_nameOf (id : ListId) : listOfName (nameOf id) = some id := by cases id <;> decide

theorem listOfName_some {name : Bytes} {id : ListId} (h : listOfName name = some id) : name = nameOf id := by
  unfold listOfName at h
  have key : ∀ {s : Bytes} {i : ListId} {r : Option ListId}, (if name = s then some i else r) = some id → s = nameOf i →
      name = nameOf id ∨ r = some id := by
    intro s i r h hs
    by_cases hn : name = s
    · rw [if_pos hn] at h; cases h; exact .inl (hn.trans hs)
    · rw [if_neg hn] at h; exact .inr h
  iterate 10
    rcases key h rfl with h | h
    · exact h
  cases h

theorem classify_hiding {bad : List Bytes} {f : Filter} (hp : Parsed f) : classify bad f = .ok (.list .cosmetic) ↔
    f.hasUnsupportedOptions = false ∧ (f.filterType = FTElementHiding ∨ f.filterType = FTElementHidingException) := by
  constructor
  · intro h
    have h1 : f.hasUnsupportedOptions = false := by
      cases hu : f.hasUnsupportedOptions with
      | false => rfl
      | true => unfold classify at h; rw [if_pos hu] at h; cases h
    refine ⟨h1, ?_⟩
    have := classify_spec hp h
    generalize hc : Class.list .cosmetic = cl at this
    cases this with
    | cosmetic h => exact h
    | unsupported => cases hc
    | idle => cases hc
    | html => cases hc
    | host s => cases s <;> cases hc
    | fp s => cases s <;> cases hc
    | dom s => cases s <;> cases hc
    | anti s => cases s <;> cases hc
    | plain s => cases s <;> cases hc
  · rintro ⟨h1, h2 | h2⟩ <;> · unfold classify; rw [if_neg (by simp [h1]), h2]; rfl

theorem classify_htmlFiltering {bad : List Bytes} {f : Filter} (hp : Parsed f) : classify bad f = .ok (.list .html) ↔
    f.hasUnsupportedOptions = false ∧ f.filterType = FTHTMLFiltering := by
  constructor
  · intro h
    have h1 : f.hasUnsupportedOptions = false := by
      cases hu : f.hasUnsupportedOptions with
      | false => rfl
      | true => unfold classify at h; rw [if_pos hu] at h; cases h
    refine ⟨h1, ?_⟩
    have := classify_spec hp h
    generalize hc : Class.list .html = cl at this
    cases this with
    | cosmetic h => cases hc
    | unsupported => cases hc
    | idle => cases hc
    | html h => exact h
    | host s => cases s <;> cases hc
    | fp s => cases s <;> cases hc
    | dom s => cases s <;> cases hc
    | anti s => cases s <;> cases hc
    | plain s => cases s <;> cases hc
  · rintro ⟨h1, h2⟩; unfold classify; rw [if_neg (by simp [h1]), h2]; rfl

theorem under_iff {bad : List Bytes} {f : Filter} (hp : Parsed f) (hc : ∃ cl, classify bad f = .ok cl) (name : Bytes) :
    Under bad name f ↔ ∃ id, listOfName name = some id ∧ classify bad f = .ok (.list id) := by
  constructor
  · intro h
    cases h with
    | filters h1 h2 h3 h4 => exact ⟨.filters, by decide, (in_fpList hp hc false).2 ⟨h1, h2, h3, h4⟩⟩
    | exceptionFilters h1 h2 h3 h4 => exact ⟨.exception, by decide, (in_fpList hp hc true).2 ⟨h1, h2, h3, h4⟩⟩
    | noFp h1 h2 h3 h4 => exact ⟨.noFp, by decide, (in_plainList hp hc false).2 ⟨h1, h2, h3, h4⟩⟩
    | noFpException h1 h2 h3 h4 => exact ⟨.noFpException, by decide, (in_plainList hp hc true).2 ⟨h1, h2, h3, h4⟩⟩
    | domainOnly h1 h2 h3 => exact ⟨.noFpDomain, by decide, (in_domList hp hc false).2 ⟨h1, h2, h3⟩⟩
    | domainOnlyException h1 h2 h3 => exact ⟨.noFpDomainException, by decide, (in_domList hp hc true).2 ⟨h1, h2, h3⟩⟩
    | antiDomainOnly h1 h2 h3 => exact ⟨.noFpAntiDomain, by decide, (in_antiList hp hc false).2 ⟨h1, h2, h3⟩⟩
    | antiDomainOnlyException h1 h2 h3 => exact ⟨.noFpAntiDomainException, by decide, (in_antiList hp hc true).2 ⟨h1, h2, h3⟩⟩
    | cosmetic h1 h2 => exact ⟨.cosmetic, by decide, (classify_hiding hp).2 ⟨h1, h2⟩⟩
    | html h1 h2 => exact ⟨.html, by decide, (classify_htmlFiltering hp).2 ⟨h1, h2⟩⟩
  · rintro ⟨id, h1, h2⟩
    rw [listOfName_some h1]
    cases id with
    | filters => obtain ⟨a, b, c, d⟩ := (in_fpList hp hc false).1 h2; exact .filters a b c d
    | exception => obtain ⟨a, b, c, d⟩ := (in_fpList hp hc true).1 h2; exact .exceptionFilters a b c d
    | noFp => obtain ⟨a, b, c, d⟩ := (in_plainList hp hc false).1 h2; exact .noFp a b c d
    | noFpException => obtain ⟨a, b, c, d⟩ := (in_plainList hp hc true).1 h2; exact .noFpException a b c d
    | noFpDomain => obtain ⟨a, b, c⟩ := (in_domList hp hc false).1 h2; exact .domainOnly a b c
    | noFpDomainException => obtain ⟨a, b, c⟩ := (in_domList hp hc true).1 h2; exact .domainOnlyException a b c
    | noFpAntiDomain => obtain ⟨a, b, c⟩ := (in_antiList hp hc false).1 h2; exact .antiDomainOnly a b c
    | noFpAntiDomainException => obtain ⟨a, b, c⟩ := (in_antiList hp hc true).1 h2; exact .antiDomainOnlyException a b c
    | cosmetic => obtain ⟨a, b⟩ := (classify_hiding hp).1 h2; exact .cosmetic a b
    | html => obtain ⟨a, b⟩ := (classify_htmlFiltering hp).1 h2; exact .html a b

/-- The invariant of sequences of calls: `c` is the client without the stored lengths. -/
structure NodeInv (c : Client E) (w : NodeClient E) : Prop where
  same : SameButLengths c w.client
  hosts : ∀ id k n, w.hostLen id k = some n → ∃ f h, (c.lists id)[k]? = some f ∧ f.host = some h ∧ n = h.length

theorem holds_text {c : Client E} {fs : List Filter} (h : c.Holds fs) {id : ListId} {f : Filter} (hf : f ∈ c.lists id) :
    f.data = none ∨ ∃ pat, HasText f pat := by
  rcases (h.parsed id f hf).text with h1 | ⟨pat, h0, h1⟩
  · exact .inl h1
  · exact .inr ⟨pat, h0, ⟨[], h1⟩, .inl (h.parsed id f hf).dataLen⟩

theorem Pointwise.get {A B : Type} {R : A → B → Prop} {l : List A} {m : List B} (h : Pointwise R l m) {k : Nat} {b : B} (hb : m[k]? = some b) :
    ∃ a, l[k]? = some a ∧ R a b := by
  induction h generalizing k with
  | nil => simp at hb
  | cons h _ ih =>
    cases k with
    | zero => simp only [List.getElem?_cons_zero, Option.some.injEq] at hb ⊢; subst hb; exact ⟨_, rfl, h⟩
    | succ k => simpa using ih (by simpa using hb)

theorem Pointwise.mem_right {A B : Type} {R : A → B → Prop} {l : List A} {m : List B} (h : Pointwise R l m) {b : B} (hb : b ∈ m) :
    ∃ a, a ∈ l ∧ R a b := by
  obtain ⟨k, hk⟩ := List.getElem?_of_mem hb
  obtain ⟨a, ha, hr⟩ := Pointwise.get h hk
  exact ⟨a, List.mem_of_getElem? ha, hr⟩

theorem Memo.text {f g : Filter} (h : Memo f g) {pat : Bytes} (ht : HasText f pat) : HasText g pat := by
  obtain ⟨h0, ⟨q, hq⟩, hl⟩ := ht
  refine ⟨h0, ⟨q, by rw [h.fields.2.2.2.2.1]; exact hq⟩, ?_⟩
  have hf : f.cached = { f with dataLen := some pat.length } := by
    unfold Filter.cached
    rw [hq]
    rcases hl with hl | hl
    · simp only [hl, strlen_cstr h0]
    · simp only [hl]; rw [← hl, ← hq]
  have h' : f.cached = g.cached := h
  have hn : g.cached.dataLen = some pat.length := by rw [← h', hf]
  cases hg : g.dataLen with
  | none => exact .inl rfl
  | some n =>
    have : g.cached = g := by
      unfold Filter.cached
      rw [hg]
      cases g.data <;> rfl
    rw [this, hg] at hn
    exact .inr hn

theorem Memo.clean {f g : Filter} (h : Memo f g) (hc : Clean f) : Clean g := by
  obtain ⟨n, rfl⟩ := h.same
  exact ⟨hc.tag, hc.domains, hc.host⟩

theorem Memo.describes {f g : Filter} {r : Report} (h : Memo f g) (hd : Describes g r) : Describes f r := by
  obtain ⟨n, rfl⟩ := h.same
  exact ⟨fun pat hp => hd.text pat (h.text hp), hd.noText, hd.host, hd.noHost, hd.domainList, hd.antiDomainList,
    hd.isDomainOnlyFilter, hd.isAntiDomainOnlyFilter, hd.isDomainOnlyExceptionFilter, hd.isAntiDomainOnlyExceptionFilter, hd.tag⟩

theorem Pointwise.comp {A B C : Type} {R : A → B → Prop} {S : B → C → Prop} {T : A → C → Prop} (ht : ∀ a b c, R a b → S b c → T a c)
    {k : List A} {l : List B} {m : List C} (h1 : Pointwise R k l) (h2 : Pointwise S l m) : Pointwise T k m := by
  induction h1 generalizing m with
  | nil => cases h2; exact .nil
  | cons h _ ih =>
    cases h2 with
    | cons h' h2 => exact .cons (ht _ _ _ h h') (ih h2)

theorem getFilters_list {c : Client E} {w : NodeClient E} {fs : List Filter} (hist : History E c fs) (hi : NodeInv c w) (id : ListId) :
    ∃ rs w', w.getFilters (nameOf id) = .ok (rs, w') ∧ Pointwise Describes (c.lists id) rs ∧ NodeInv c w' := by
  have hh := history_holds hist
  obtain ⟨L, hL, hm⟩ := hi.same
  have hwl : w.client.lists = L := by rw [hL]
  have hmem : ∀ f ∈ c.lists id, Clean f := fun f hf => history_clean hist f (hh.mem.1 hf).1
  obtain ⟨rs, h1, h2, h3, h4⟩ := reportFilters_eq (hl := w.hostLen id) (l := L id) (i := 0)
    (fun g hg => by
      obtain ⟨f, hf, hfg⟩ := Pointwise.mem_right (hm id) hg
      rcases holds_text hh hf with h | ⟨pat, h⟩
      · exact .inl (by rw [hfg.fields.2.2.2.2.1]; exact h)
      · exact .inr ⟨pat, hfg.text h⟩)
    (fun g hg => by
      obtain ⟨f, hf, hfg⟩ := Pointwise.mem_right (hm id) hg
      exact hfg.clean (hmem f hf))
    (fun k g hg => by
      obtain ⟨f, hf, hfg⟩ := Pointwise.get (hm id) hg
      rw [Nat.zero_add]
      cases hn : w.hostLen id k with
      | none => exact .inl rfl
      | some n =>
        obtain ⟨f', h, h1, h2, h3⟩ := hi.hosts id k n hn
        rw [hf] at h1
        cases h1
        exact .inr ⟨h, by rw [hfg.fields.2.2.2.2.2.2.2]; exact h2, by rw [h3]⟩)
  have hg : w.getFilters (nameOf id) = .ok (rs.map (·.1), {
      client := { w.client with lists := fun i => if i = id then rs.map (·.2.1) else w.client.lists i }
      hostLen := fun i k => if i = id then (match rs[k]? with | some r => r.2.2 | none => none) else w.hostLen i k }) := by
    unfold NodeClient.getFilters
    rw [listOfName_nameOf]
    simp only
    rw [hwl, h1]
    rfl
  refine ⟨_, _, hg, Pointwise.comp (R := Memo) (S := Describes) (fun _ _ _ h h' => Memo.describes h h') (hm id) h2, hi.same.trans (getFilters_memo hg), ?_⟩
  intro i k n hn
  simp only at hn
  split at hn
  · rename_i hid
    subst hid
    cases hr : rs[k]? with
    | none => rw [hr] at hn; cases hn
    | some r =>
      rw [hr] at hn
      simp only at hn
      have hk : k < (L i).length := by rw [← h3]; exact (List.getElem?_eq_some_iff.1 hr).1
      obtain ⟨r', hr', hl⟩ := h4 k _ (List.getElem?_eq_getElem hk)
      rw [hr] at hr'
      cases hr'
      rcases hl with hl | ⟨h, hh1, hl⟩
      · rw [hn] at hl; cases hl
      · rw [hn] at hl
        cases hl
        obtain ⟨f, hf, hfg⟩ := Pointwise.get (hm i) (List.getElem?_eq_getElem hk)
        exact ⟨f, h, hf, by rw [← hfg.fields.2.2.2.2.2.2.2]; exact hh1, rfl⟩
  · exact hi.hosts i k n hn

theorem parse_extends {c c' : Client E} {fs : List Filter} {input : Bytes} {pr : Bool} (hist : History E c fs) (h0 : 0 ∉ input)
    (h : c.parse input pr = .ok c') {id : ListId} {k : Nat} {f : Filter} (hf : (c.lists id)[k]? = some f) : (c'.lists id)[k]? = some f := by
  have hh := history_holds hist
  obtain ⟨n, b, _, h2, rfl⟩ := parse_ok_iff.1 h
  obtain ⟨gs, hg, hi⟩ := Index.fill (fun l hl h => h0 (mem_lines hl 0 h).1) hh.index h2
  have e1 : c.lists id = fs.filter _ := hh.index.arr id
  have e2 : b.arr id = (fs ++ gs).filter _ := hi.arr id
  show (b.arr id)[k]? = some f
  rw [e2, List.filter_append, ← e1, List.getElem?_append_left (List.getElem?_eq_some_iff.1 hf).1]
  exact hf

theorem nodeRun_inv {ops : List NodeOp} : ∀ {w w' : NodeClient E} {c : Client E} {fs : List Filter} {as : List NodeAnswer}, NodeInv c w →
    History E c fs → (∀ op ∈ plainOps ops, ∀ input preserve, op = .parse input preserve → 0 ∉ input) → nodeRun w ops = .ok (as, w') →
    ∃ as' c' fs', run c (plainOps ops) = .ok (as', c') ∧ History E c' fs' ∧ NodeInv c' w' := by
  induction ops with
  | nil => intro w w' c fs as hi hist h0 h; cases h; exact ⟨[], c, fs, rfl, hist, hi⟩
  | cons op ops ih =>
    intro w w' c fs as hi hist h0 h
    obtain ⟨⟨a, w1⟩, h1, h⟩ := Res.bind_eq_ok.1 h
    obtain ⟨⟨as1, w2⟩, h2, h⟩ := Res.bind_eq_ok.1 h
    cases h
    cases op with
    | op o =>
      have hp : plainOps (.op o :: ops) = o :: plainOps ops := rfl
      rw [hp] at h0 ⊢
      simp only [nodeStep] at h1
      obtain ⟨⟨b, d⟩, h3, h1⟩ := Res.map_eq_ok.1 h1
      cases h1
      have hs := step_memo hi.same o
      rw [h3] at hs
      generalize he : step c o = x at hs
      cases hs with
      | @ok a' _ ha =>
        obtain ⟨a', c1⟩ := a'
        have hrun : run c [o] = .ok ([a'], c1) := by simp only [run, he, Res.bind_ok]
        obtain ⟨fs1, hist1⟩ := run_history hist (fun op hop => h0 op (by simp only [List.mem_singleton] at hop; simp [hop])) hrun
        have hi1 : NodeInv c1 { client := d, hostLen := if o = Op.clear then fun _ _ => none else w.hostLen } := by
          refine ⟨ha.2, fun id k n hn => ?_⟩
          have keep : ∀ {c' : Client E}, c'.lists = c.lists → w.hostLen id k = some n →
              ∃ f h, (c'.lists id)[k]? = some f ∧ f.host = some h ∧ n = h.length := by
            intro c' hc' hn
            rw [hc']
            exact hi.hosts id k n hn
          cases o with
          | clear => rw [if_pos rfl] at hn; cases hn
          | parse input pr =>
            rw [if_neg nofun] at hn
            simp only [step] at he
            obtain ⟨c2, hc2, he⟩ := Res.map_eq_ok.1 he
            cases he
            obtain ⟨f, h, h5, h6⟩ := hi.hosts id k n hn
            exact ⟨f, h, parse_extends hist (h0 _ (List.mem_cons_self ..) input pr rfl) hc2 h5, h6⟩
          | «matches» url ctx dom =>
            rw [if_neg nofun] at hn
            simp only [step] at he
            obtain ⟨c2, hc2, he⟩ := Res.map_eq_ok.1 he
            cases he
            exact keep rfl hn
          | find url ctx dom =>
            rw [if_neg nofun] at hn
            simp only [step] at he
            obtain ⟨c2, hc2, he⟩ := Res.map_eq_ok.1 he
            cases he
            exact keep rfl hn
          | addTag t =>
            rw [if_neg nofun] at hn
            cases he
            exact keep (by unfold Client.addTag; split <;> rfl) hn
          | removeTag t => rw [if_neg nofun] at hn; cases he; exact keep rfl hn
          | tagExists t => rw [if_neg nofun] at hn; cases he; exact keep rfl hn
          | enableBadFingerprintDetection =>
            rw [if_neg nofun] at hn
            cases he
            exact keep (by unfold Client.enableBadFingerprintDetection; split <;> rfl) hn
        obtain ⟨as', c', fs', h4, h5, h6⟩ := ih hi1 hist1 (fun op hop => h0 op (by simp [hop])) h2
        refine ⟨a' :: as', c', fs', ?_, h5, h6⟩
        simp only [run]
        rw [he, Res.bind_ok]
        dsimp only
        rw [h4]
        rfl
    | getFilters name =>
      simp only [nodeStep] at h1
      obtain ⟨⟨b, d⟩, h3, h1⟩ := Res.map_eq_ok.1 h1
      cases h1
      have : NodeInv c d := by
        cases hn : listOfName name with
        | none =>
          unfold NodeClient.getFilters at h3
          rw [hn] at h3
          cases h3
          exact hi
        | some id =>
          obtain ⟨rs, w', h4, _, h5⟩ := getFilters_list hist hi id
          rw [← listOfName_some hn, h3] at h4
          cases h4
          exact h5
      exact ih this hist h0 h2
    | storeLengths p =>
      cases h1
      exact ih (w := stored w p) (as := as1) ⟨hi.same.trans (stored_memo w p), hi.hosts⟩ hist h0 h2

open Classical in
/-- **C57** After any sequence of calls on a new client, `getFilters` describes, for each name, the
rules of the lists loaded which belong there, in their order.  (`fs` are the rules read
since the last `clear`; `run_history` shows that there always is such a list.) -/
theorem C57_getFilters_reports_partial {ops : List NodeOp} {as : List NodeAnswer} {w : NodeClient E}
    (h : nodeRun { client := Client.fresh E } ops = .ok (as, w))
    (h0 : ∀ op ∈ plainOps ops, ∀ input preserve, op = .parse input preserve → 0 ∉ input)
    {as' : List Answer} {c : Client E} {fs : List Filter} (hr : run (Client.fresh E) (plainOps ops) = .ok (as', c))
    (hist : History E c fs) (name : Bytes) :
    ∃ rs w', w.getFilters name = .ok (rs, w') ∧ Pointwise Describes (fs.filter fun f => Under E.bad name f) rs := by
  obtain ⟨as'', c', fs', h1, h2, h3⟩ := nodeRun_inv (w := { client := Client.fresh E })
    ⟨SameButLengths.refl _, fun _ _ _ h => nomatch h⟩ History.new h0 h
  rw [hr] at h1
  cases h1
  have hh := history_holds hist
  cases hn : listOfName name with
  | none =>
    refine ⟨[], w, by unfold NodeClient.getFilters; rw [hn]; rfl, ?_⟩
    have : (fs.filter fun f => decide (Under E.bad name f)) = [] := by
      rw [List.filter_eq_nil_iff]
      intro f hf hu
      rw [decide_eq_true_eq, under_iff (hh.index.parsed f hf) (hh.index.classified f hf)] at hu
      obtain ⟨id, hid, _⟩ := hu
      rw [hn] at hid
      cases hid
    rw [this]
    exact .nil
  | some id =>
    obtain ⟨rs, w', h4, h5, _⟩ := getFilters_list h2 h3 id
    rw [listOfName_some hn]
    refine ⟨rs, w', h4, ?_⟩
    have : (fs.filter fun f => decide (Under E.bad (nameOf id) f)) = c.lists id := by
      have e : c.lists id = fs.filter _ := hh.index.arr id
      rw [e]
      apply List.filter_congr
      intro f hf
      rw [decide_eq_decide, under_iff (hh.index.parsed f hf) (hh.index.classified f hf)]
      constructor
      · rintro ⟨id', h1, h2⟩
        rw [listOfName_nameOf] at h1
        cases h1
        exact h2
      · exact fun h => ⟨id, listOfName_nameOf id, h⟩
    rw [this]
    exact h5

/-- **C57** Every rule read from a list is reported under exactly one name, unless it has
unsupported options, is a comment or empty, or is a host rule. -/
theorem C57_one_name_partial {c : Client E} {fs : List Filter} (hist : History E c fs) {f : Filter} (hf : f ∈ fs)
    (h1 : f.hasUnsupportedOptions = false) (h2 : f.filterType ≠ FTComment ∧ f.filterType ≠ FTEmpty)
    (h3 : has f.filterType FTHostOnly = false) :
    ∃ name, Under E.bad name f ∧ ∀ name', Under E.bad name' f → name' = name := by
  have hh := history_holds hist
  have hp := hh.index.parsed f hf
  have hc := hh.index.classified f hf
  obtain ⟨cl, hcl⟩ := hc
  suffices ∃ id, cl = .list id by
    obtain ⟨id, rfl⟩ := this
    refine ⟨nameOf id, (under_iff hp ⟨_, hcl⟩ _).2 ⟨id, listOfName_nameOf id, hcl⟩, fun name' h' => ?_⟩
    obtain ⟨id', h4, h5⟩ := (under_iff hp ⟨_, hcl⟩ _).1 h'
    rw [hcl] at h5
    cases h5
    exact listOfName_some h4
  have := classify_spec hp hcl
  cases this with
  | unsupported h => rw [h1] at h; cases h
  | idle h => rcases h with h | h <;> simp [h] at h2
  | host s _ _ h => rw [h3] at h; cases h
  | _ => exact ⟨_, rfl⟩

/-- **C57** The report about a rule is determined by the rule, unless its text or its host is empty:
asking again gives the same. -/
theorem C57_determined_partial {f : Filter} {r r' : Report} (h : Describes f r) (h' : Describes f r')
    (ht : f.data = none ∨ ∃ pat, HasText f pat ∧ pat ≠ []) (hh : f.host ≠ some []) : r = r' := by
  have e1 : r.data = r'.data := by
    rcases ht with ht | ⟨pat, ht, hn⟩
    · rw [h.noText ht, h'.noText ht]
    · rcases h.text pat ht with h1 | h1
      · rcases h'.text pat ht with h2 | h2
        · rw [h1, h2]
        · exact absurd h2.1 hn
      · exact absurd h1.1 hn
  have e2 : r.host = r'.host := by
    cases hf : f.host with
    | none => rw [h.noHost hf, h'.noHost hf]
    | some x =>
      have hn : x ≠ [] := by rintro rfl; exact hh hf
      rcases h.host x hf with h1 | h1
      · rcases h'.host x hf with h2 | h2
        · rw [h1, h2]
        · exact absurd h2.1 hn
      · exact absurd h1.1 hn
  have bool : ∀ {a b : Bool} {p : Prop}, (a = true ↔ p) → (b = true ↔ p) → a = b := by
    intro a b p ha hb
    rw [Bool.eq_iff_iff, ha, hb]
  have e3 := bool h.isDomainOnlyFilter h'.isDomainOnlyFilter
  have e4 := bool h.isAntiDomainOnlyFilter h'.isAntiDomainOnlyFilter
  have e5 := bool h.isDomainOnlyExceptionFilter h'.isDomainOnlyExceptionFilter
  have e6 := bool h.isAntiDomainOnlyExceptionFilter h'.isAntiDomainOnlyExceptionFilter
  have e7 := h.domainList.trans h'.domainList.symm
  have e8 := h.antiDomainList.trans h'.antiDomainList.symm
  have e9 := h.tag.trans h'.tag.symm
  cases r
  cases r'
  simp only at e1 e2 e3 e4 e5 e6 e7 e8 e9
  rw [e1, e2, e3, e4, e5, e6, e7, e8, e9]

/-- **C57** is violated: host rules are reported under no name. -/
theorem C57_counterexample_host_rules {f : Filter} {s : Bool} (h : HostRule s f) (bad : List Bytes) (name : Bytes) :
    ¬ Under bad name f := by
  obtain ⟨hk, hh, _⟩ := h
  intro hu
  have hosts : ∀ {b : Prop}, has f.filterType FTHostOnly = false → b := by intro b h; rw [hh] at h; cases h
  cases hu with
  | filters _ _ h => exact hosts h
  | exceptionFilters _ _ h => exact hosts h
  | noFp _ h => exact hosts h.2.1
  | noFpException _ h => exact hosts h.2.1
  | domainOnly _ h => exact hosts h.2.1
  | antiDomainOnly _ h => exact hosts h.2.1
  | domainOnlyException _ h => exact hosts h.2.1
  | antiDomainOnlyException _ h => exact hosts h.2.1
  | cosmetic _ h => rcases h with h | h <;> · rw [h] at hh; revert hh; decide
  | html _ h => rw [h] at hh; revert hh; decide

end

/-- A client with one host rule, asked for all its rules. -/
private def hostRuleCalls : List NodeOp := [.op (.parse bs%"||example.com^" false), .getFilters bs%"filters",
  .getFilters bs%"noFingerprintFilters", .op (.matches bs%"http://example.com/" 0 none)]

/-- what matches the request -/
private def hostRule : Filter :=
  { filterType := FTHostAnchored ||| FTHostOnly, data := some bs%"example.com^", dataLen := some 12, host := some bs%"example.com" }

example : (Prod.fst <$> nodeRun { client := Client.fresh toyEnv } hostRuleCalls) =
    .ok [.op .done, .filters [], .filters [], .op (.verdict true (some hostRule) none)] := by decide +kernel

/-- **C57** is violated: asking twice can give different answers (the empty text of a rule is
reported the first time only). -/
theorem C57_counterexample_twice : ∃ rs rs' : List Report, (Prod.fst <$> nodeRun { client := Client.fresh toyEnv }
    [.op (.parse bs%"|$script" false), .getFilters bs%"noFingerprintFilters", .getFilters bs%"noFingerprintFilters"]) =
      .ok [.op .done, .filters rs, .filters rs'] ∧ rs ≠ rs' := by
  refine ⟨[{ data := some [], host := none, domainList := [], antiDomainList := [], isDomainOnlyFilter := false, isAntiDomainOnlyFilter := false, isDomainOnlyExceptionFilter := false, isAntiDomainOnlyExceptionFilter := false, tag := [] }],
    [{ data := none, host := none, domainList := [], antiDomainList := [], isDomainOnlyFilter := false, isAntiDomainOnlyFilter := false, isDomainOnlyExceptionFilter := false, isAntiDomainOnlyExceptionFilter := false, tag := [] }], ?_, ?_⟩ <;> decide +kernel

/-- The other theorems are not empty: two lists, and calls of `getFilters` between them. -/
private def mixedCalls : List NodeOp := [.op (.parse bs%"adbanner$domain=a.com|~b.a.com\n@@||x.com/good$tag=t\n##.ad" false),
  .getFilters bs%"filters", .storeLengths fun _ i => i == 0, .op (.parse bs%"/adverts.$domain=~c.com" false),
  .op (.matches bs%"http://h.com/adbanner" 0 (some bs%"a.com")), .getFilters bs%"exceptionFilters"]

private def reportedException : Report :=
  { data := some bs%"x.com/good", host := some bs%"x.com", domainList := [], antiDomainList := [],
    isDomainOnlyFilter := false, isAntiDomainOnlyFilter := false, isDomainOnlyExceptionFilter := false,
    isAntiDomainOnlyExceptionFilter := false, tag := bs%"t" }

private def reportedBlocking : Report :=
  { data := some bs%"adbanner", host := none, domainList := [bs%"a.com"], antiDomainList := [bs%"b.a.com"],
    isDomainOnlyFilter := false, isAntiDomainOnlyFilter := false, isDomainOnlyExceptionFilter := false,
    isAntiDomainOnlyExceptionFilter := false, tag := [] }

private def matchingRule : Filter :=
  { data := some (cstr bs%"adbanner"), dataLen := some 8, domainList := some bs%"a.com|~b.a.com" }

example : (Prod.fst <$> nodeRun { client := Client.fresh toyEnv } mixedCalls) =
    .ok [.op .done, .filters [reportedBlocking], .none, .op .done, .op (.verdict true (some matchingRule) none),
      .filters [reportedException]] := by decide +kernel

end AdBlock
