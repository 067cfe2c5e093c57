import Verif.SpecReports
import Verif.Props.StatsText
/-
What `getFilters` reports, in terms of the text of lists (C107, C108).
-/
namespace AdBlock
open Spec

theorem readAs_append {fs gs : List Filter} {rs rs' : List RuleText} {ps ps' : List PageText} (h : ReadAs fs rs ps) (h' : ReadAs gs rs' ps') :
    ReadAs (fs ++ gs) (rs ++ rs') (ps ++ ps') := by
  induction h with
  | nil => exact h'
  | idle hf _ ih => exact .idle hf ih
  | page p hp hf _ ih => exact .page p hp hf ih
  | rule r pr hw _ ih => exact .rule r pr hw ih

open Classical in
theorem readAs_filter {P : Filter → Prop} {Q : RuleText → Prop} (hP : ∀ f, P f → ∃ s, Kind s f)
    (hQ : ∀ r pr, r.WellFormed → (P (r.filter pr) ↔ Q r)) {fs : List Filter} {rs : List RuleText} {ps : List PageText} (h : ReadAs fs rs ps) :
    Pointwise (fun r f => ∃ pr, f = r.filter pr ∧ r.WellFormed) (rs.filter fun r => decide (Q r)) (fs.filter fun f => decide (P f)) := by
  have no : ∀ f : Filter, f.filterType ∈ [FTComment, FTEmpty, FTElementHiding, FTElementHidingException, FTHTMLFiltering] → ¬ P f := by
    intro f hf hp
    obtain ⟨s, hs⟩ := hP f hp
    unfold Kind at hs
    simp only [List.mem_cons, List.not_mem_nil, or_false] at hf
    rcases hf with h | h | h | h | h <;> rw [h] at hs <;> revert hs <;> cases s <;> decide
  induction h with
  | nil => exact .nil
  | idle hf _ ih => rw [List.filter_cons_of_neg]; exact ih; simpa using no _ (by rcases hf with h | h <;> rw [h] <;> decide)
  | page p _ hf _ ih => rw [List.filter_cons_of_neg]; exact ih; simpa using no _ (by rw [hf.kind]; cases p.kind <;> decide)
  | rule r pr hw _ ih =>
    have := hQ r pr hw
    by_cases h : Q r
    · rw [List.filter_cons_of_pos (by simpa using h), List.filter_cons_of_pos (by simpa using this.2 h)]
      exact .cons ⟨pr, rfl, hw⟩ ih
    · rw [List.filter_cons_of_neg (by simpa using h), List.filter_cons_of_neg (by simpa using fun h' => h (this.1 h'))]
      exact ih

theorem pointwise_comp {A B C : Type} {R : A → B → Prop} {S : B → C → Prop} {T : A → C → Prop} (h : ∀ a b c, R a b → S b c → T a c)
    {l : List A} {m : List B} {k : List C} (h1 : Pointwise R l m) (h2 : Pointwise S m k) : Pointwise T l k := by
  induction h1 generalizing k with
  | nil => cases h2; exact .nil
  | cons hr _ ih =>
    cases h2 with
    | cons hs h2 => exact .cons (h _ _ _ hr hs) (ih h2)

theorem shows_of {r : RuleText} (hw : r.WellFormed) {pr : Bool} {p : Report} (h : Describes (r.filter pr) p) : ReportsRule r p := by
  have hd : (r.filter pr).domainList = r.value bs%"domain=" := opts_domainList hw
  have he : has (r.filter pr).filterType FTException = r.exception := (kind_bits r).1
  have hh : (r.filter pr).host = if r.anchor = .host then some r.hostPart else none := rfl
  have ht : (r.filter pr).tag = (r.value bs%"tag=").getD [] := opts_tag hw
  refine ⟨h.text _ (filter_hasText hw pr), fun ha => h.host _ (by rw [hh, if_pos ha]), fun ha => h.noHost (by rw [hh, if_neg ha]), ?_, ?_, ?_, ?_, ?_, ?_,
    h.tag.trans ht⟩
  · intro dl hv
    have h1 := h.domainList
    have h2 := h.antiDomainList
    rw [hd, hv] at h1 h2
    exact ⟨h1, h2⟩
  · intro hv
    have h1 := h.domainList
    have h2 := h.antiDomainList
    rw [hd, hv] at h1 h2
    exact ⟨h1, h2⟩
  · rw [h.isDomainOnlyFilter, he, OnlyPositive, hd, and_comm]
  · rw [h.isAntiDomainOnlyFilter, he, OnlyNegative, hd, and_comm]
  · rw [h.isDomainOnlyExceptionFilter, he, OnlyPositive, hd, and_comm]
  · rw [h.isAntiDomainOnlyExceptionFilter, he, OnlyNegative, hd, and_comm]

/-- the rules read by the calls -/
theorem written_history {E : Env} {ops : List NodeOp} {rs : List RuleText} {ps : List PageText} (h : CallsLoad E.bad ops rs ps) {as : List Answer} {c : Client E}
    (hr : run (Client.fresh E) (plainOps ops) = .ok (as, c)) : ∃ fs, History E c fs ∧ ReadAs fs rs ps := by
  have snoc : ∀ {ops : List NodeOp} {o : Op} {as : List Answer} {c : Client E},
      run (Client.fresh E) (plainOps (ops ++ [.op o])) = .ok (as, c) → ∃ as0 c0 a, run (Client.fresh E) (plainOps ops) = .ok (as0, c0) ∧ step c0 o = .ok (a, c) := by
    intro ops o as c hr
    rw [show plainOps (ops ++ [.op o]) = plainOps ops ++ [o] by simp [plainOps], run_append] at hr
    obtain ⟨⟨as0, c0⟩, h1, hr⟩ := Res.bind_eq_ok.1 hr
    obtain ⟨⟨as1, c1⟩, h2, hr⟩ := Res.bind_eq_ok.1 hr
    cases hr
    simp only [run] at h2
    obtain ⟨⟨a, c2⟩, h3, h2⟩ := Res.bind_eq_ok.1 h2
    cases h2
    exact ⟨as0, c0, a, h1, h3⟩
  induction h generalizing as c with
  | new => cases hr; exact ⟨[], .new, .nil⟩
  | @parse ops rs ps input pr rs' ps' _ h0 hc hs ih =>
    obtain ⟨as0, c0, a, h1, h2⟩ := snoc hr
    obtain ⟨fs, h3, h4⟩ := ih h1
    obtain ⟨c', hp, h2⟩ := Res.map_eq_ok.1 h2
    cases h2
    obtain ⟨gs, h5, h6⟩ := contents_reads E.bad hc hs.wellFormed pr
    exact ⟨_, .parse h3 h0 hp h5, readAs_append h4 h6⟩
  | clear _ _ =>
    obtain ⟨as0, c0, a, h1, h2⟩ := snoc hr
    cases h2
    exact ⟨_, .clear _, .nil⟩
  | @other ops rs ps op _ hp hc ih =>
    cases op with
    | op o =>
      obtain ⟨as0, c0, a, h1, h2⟩ := snoc hr
      obtain ⟨fs, h3, h4⟩ := ih h1
      refine ⟨fs, ?_, h4⟩
      cases o with
      | parse i p => exact absurd rfl (hp i p)
      | clear => exact absurd rfl hc
      | «matches» url ctx dom =>
        obtain ⟨o, ho, h2⟩ := Res.map_eq_ok.1 h2
        cases h2
        exact .query (url := url) (ctx := ctx) (dom := dom) (b := o.block) h3 (by unfold Client.matches; rw [ho]; rfl)
      | find url ctx dom =>
        obtain ⟨r, _, h2⟩ := Res.map_eq_ok.1 h2
        cases h2
        exact h3
      | addTag t => cases h2; exact .addTag t h3
      | removeTag t => cases h2; exact .removeTag t h3
      | tagExists t => cases h2; exact h3
      | enableBadFingerprintDetection => cases h2; exact .enableBadFingerprintDetection h3
    | getFilters name => exact ih (by rw [← hr]; simp [plainOps])
    | storeLengths which => exact ih (by rw [← hr]; simp [plainOps])

theorem written_noNul {bad : List Bytes} {ops : List NodeOp} {rs : List RuleText} {ps : List PageText} (h : CallsLoad bad ops rs ps) :
    ∀ op ∈ plainOps ops, ∀ input preserve, op = .parse input preserve → 0 ∉ input := by
  have app : ∀ ops ops' : List NodeOp, plainOps (ops ++ ops') = plainOps ops ++ plainOps ops' := by simp [plainOps]
  induction h with
  | new => simp [plainOps]
  | @parse ops rs ps input pr rs' ps' _ h0 _ _ ih =>
    intro op hop i p e
    rw [app, List.mem_append] at hop
    rcases hop with hop | hop
    · exact ih op hop i p e
    · rw [show plainOps [.op (.parse input pr)] = [.parse input pr] from rfl, List.mem_singleton, e] at hop
      cases hop
      exact h0
  | clear _ ih =>
    intro op hop i p e
    rw [app, List.mem_append] at hop
    rcases hop with hop | hop
    · exact ih op hop i p e
    · rw [show plainOps [.op .clear] = [.clear] from rfl, List.mem_singleton, e] at hop
      cases hop
  | @other ops rs ps op' _ hp _ ih =>
    intro op hop i p e
    rw [app, List.mem_append] at hop
    rcases hop with hop | hop
    · exact ih op hop i p e
    · cases op' with
      | op o =>
        rw [show plainOps [.op o] = [o] from rfl, List.mem_singleton, e] at hop
        exact absurd (by rw [hop]) (hp i p)
      | getFilters name => cases hop
      | storeLengths which => cases hop

theorem under_kind {bad : List Bytes} {name : Bytes} (hn : name ≠ bs%"cosmeticFilters" ∧ name ≠ bs%"htmlFilters") {f : Filter} (h : Under bad name f) :
    ∃ s, Kind s f := by
  cases h with
  | filters _ h => exact ⟨_, h⟩
  | exceptionFilters _ h => exact ⟨_, h⟩
  | cosmetic => exact absurd rfl hn.1
  | html => exact absurd rfl hn.2
  | noFp _ h => exact ⟨_, h.1⟩
  | noFpException _ h => exact ⟨_, h.1⟩
  | domainOnly _ h => exact ⟨_, h.1⟩
  | antiDomainOnly _ h => exact ⟨_, h.1⟩
  | domainOnlyException _ h => exact ⟨_, h.1⟩
  | antiDomainOnlyException _ h => exact ⟨_, h.1⟩

theorem under_sorted {bad : List Bytes} {name : Bytes} (hn : name ≠ bs%"cosmeticFilters" ∧ name ≠ bs%"htmlFilters") (r : RuleText) (pr : Bool)
    (hw : r.WellFormed) : Under bad name (r.filter pr) ↔ SortedUnder bad name r := by
  constructor
  · intro h
    cases h with
    | filters a b c d => exact .filters ((indexed_filter hw bad pr false).1 ⟨a, b, c, d⟩)
    | exceptionFilters a b c d => exact .exceptionFilters ((indexed_filter hw bad pr true).1 ⟨a, b, c, d⟩)
    | cosmetic => exact absurd rfl hn.1
    | html => exact absurd rfl hn.2
    | noFp a b c d => exact .other ((other_filter hw bad pr false).1 ⟨a, b, c, d⟩)
    | noFpException a b c d => exact .otherException ((other_filter hw bad pr true).1 ⟨a, b, c, d⟩)
    | domainOnly a b c => exact .domainOnly ((domain_filter hw bad pr false).1.1 ⟨a, b, c⟩)
    | antiDomainOnly a b c => exact .antiDomainOnly ((domain_filter hw bad pr false).2.1 ⟨a, b, c⟩)
    | domainOnlyException a b c => exact .domainOnlyException ((domain_filter hw bad pr true).1.1 ⟨a, b, c⟩)
    | antiDomainOnlyException a b c => exact .antiDomainOnlyException ((domain_filter hw bad pr true).2.1 ⟨a, b, c⟩)
  · intro h
    cases h with
    | filters h => obtain ⟨a, b, c, d⟩ := (indexed_filter hw bad pr false).2 h; exact .filters a b c d
    | exceptionFilters h => obtain ⟨a, b, c, d⟩ := (indexed_filter hw bad pr true).2 h; exact .exceptionFilters a b c d
    | other h => obtain ⟨a, b, c, d⟩ := (other_filter hw bad pr false).2 h; exact .noFp a b c d
    | otherException h => obtain ⟨a, b, c, d⟩ := (other_filter hw bad pr true).2 h; exact .noFpException a b c d
    | domainOnly h => obtain ⟨a, b, c⟩ := (domain_filter hw bad pr false).1.2 h; exact .domainOnly a b c
    | antiDomainOnly h => obtain ⟨a, b, c⟩ := (domain_filter hw bad pr false).2.2 h; exact .antiDomainOnly a b c
    | domainOnlyException h => obtain ⟨a, b, c⟩ := (domain_filter hw bad pr true).1.2 h; exact .domainOnlyException a b c
    | antiDomainOnlyException h => obtain ⟨a, b, c⟩ := (domain_filter hw bad pr true).2.2 h; exact .antiDomainOnlyException a b c

open Classical in
/-- **C107**: after any calls on a new client which load lists of rules, comments and rules about the contents of pages,
`getFilters` reports under each name the rules of the lists which are of the kind named, in the order in which they are
written, with the text, the host, the domains and the tag which they have there. -/
theorem C107_reports {E : Env} {ops : List NodeOp} {as : List NodeAnswer} {w : NodeClient E} (h : nodeRun { client := Client.fresh E } ops = .ok (as, w))
    {rs : List RuleText} {ls : List PageText} (hw : CallsLoad E.bad ops rs ls) {name : Bytes} (hn : name ≠ bs%"cosmeticFilters" ∧ name ≠ bs%"htmlFilters") :
    ∃ ps w', w.getFilters name = .ok (ps, w') ∧ Pointwise ReportsRule (rs.filter fun r => SortedUnder E.bad name r) ps := by
  have h0 := written_noNul hw
  obtain ⟨as', c, fs', h1, -, -⟩ := nodeRun_inv (w := { client := Client.fresh E }) ⟨SameButLengths.refl _, fun _ _ _ h => nomatch h⟩ History.new h0 h
  obtain ⟨fs, h2, h3⟩ := written_history hw h1
  obtain ⟨ps, w', h4, h5⟩ := C57_getFilters_reports_partial h h0 h1 h2 name
  refine ⟨ps, w', h4, ?_⟩
  exact pointwise_comp (fun r f p ⟨pr, e, hw⟩ hd => shows_of hw (e ▸ hd))
    (readAs_filter (fun f hf => under_kind hn hf) (fun r pr hw => under_sorted hn r pr hw) h3) h5

/-- **C107**: every rule with supported options that does not consist of a host is reported under exactly one name. -/
theorem C107_one_name (bad : List Bytes) {r : RuleText} (hs : ∀ o ∈ r.entries, ¬ RuleText.Unsupported o) (hh : ¬ r.HostOnly) :
    ∃ name, SortedUnder bad name r ∧ ∀ name', SortedUnder bad name' r → name' = name := by
  have hpn : ∀ dl, positive dl = [] → negative dl = [] → False := fun dl h1 h2 => (positive_or_negative dl).elim (· h1) (· h2)
  have hu : ∀ {s}, Usable s r ↔ r.exception = s := ⟨fun h => h.1, fun h => ⟨h, hs⟩⟩
  have hI : ∀ {s}, IndexedSort bad s r ↔ r.exception = s ∧ r.Indexable bad :=
    ⟨fun h => ⟨h.1.1, h.2.2⟩, fun h => ⟨hu.2 h.1, hh, h.2⟩⟩
  have hD : ∀ {s}, DomainSort bad s r ↔ r.exception = s ∧ ¬ r.Indexable bad ∧ ∃ dl, r.value bs%"domain=" = some dl ∧ negative dl = [] :=
    ⟨fun ⟨h, dl, hb, hn⟩ => ⟨h.1, hb.2.2, dl, hb.1, hn⟩, fun ⟨h, hi, dl, hv, hn⟩ => ⟨hu.2 h, dl, ⟨hv, hh, hi⟩, hn⟩⟩
  have hA : ∀ {s}, AntiDomainSort bad s r ↔ r.exception = s ∧ ¬ r.Indexable bad ∧ ∃ dl, r.value bs%"domain=" = some dl ∧ positive dl = [] :=
    ⟨fun ⟨h, dl, hb, hn⟩ => ⟨h.1, hb.2.2, dl, hb.1, hn⟩, fun ⟨h, hi, dl, hv, hn⟩ => ⟨hu.2 h, dl, ⟨hv, hh, hi⟩, hn⟩⟩
  have hO : ∀ {s}, OtherSort bad s r ↔ r.exception = s ∧ ¬ r.Indexable bad ∧ ∀ dl, r.value bs%"domain=" = some dl → positive dl ≠ [] ∧ negative dl ≠ [] :=
    ⟨fun ⟨h, _, hi, hv⟩ => ⟨h.1, hi, hv⟩, fun ⟨h, hi, hv⟩ => ⟨hu.2 h, hh, hi, hv⟩⟩
  have key : ∀ name, SortedUnder bad name r → ∃ s, r.exception = s ∧
      (r.Indexable bad ∧ name = (if s then bs%"exceptionFilters" else bs%"filters") ∨
       ¬ r.Indexable bad ∧ (∃ dl, r.value bs%"domain=" = some dl ∧ negative dl = []) ∧
         name = (if s then bs%"noFingerprintDomainOnlyExceptionFilters" else bs%"noFingerprintDomainOnlyFilters") ∨
       ¬ r.Indexable bad ∧ (∃ dl, r.value bs%"domain=" = some dl ∧ positive dl = []) ∧
         name = (if s then bs%"noFingerprintAntiDomainOnlyExceptionFilters" else bs%"noFingerprintAntiDomainOnlyFilters") ∨
       ¬ r.Indexable bad ∧ (∀ dl, r.value bs%"domain=" = some dl → positive dl ≠ [] ∧ negative dl ≠ []) ∧
         name = (if s then bs%"noFingerprintExceptionFilters" else bs%"noFingerprintFilters")) := by
    intro name h
    cases h with
    | filters h => exact ⟨_, (hI.1 h).1, .inl ⟨(hI.1 h).2, rfl⟩⟩
    | exceptionFilters h => exact ⟨_, (hI.1 h).1, .inl ⟨(hI.1 h).2, rfl⟩⟩
    | domainOnly h => exact ⟨_, (hD.1 h).1, .inr (.inl ⟨(hD.1 h).2.1, (hD.1 h).2.2, rfl⟩)⟩
    | domainOnlyException h => exact ⟨_, (hD.1 h).1, .inr (.inl ⟨(hD.1 h).2.1, (hD.1 h).2.2, rfl⟩)⟩
    | antiDomainOnly h => exact ⟨_, (hA.1 h).1, .inr (.inr (.inl ⟨(hA.1 h).2.1, (hA.1 h).2.2, rfl⟩))⟩
    | antiDomainOnlyException h => exact ⟨_, (hA.1 h).1, .inr (.inr (.inl ⟨(hA.1 h).2.1, (hA.1 h).2.2, rfl⟩))⟩
    | other h => exact ⟨_, (hO.1 h).1, .inr (.inr (.inr ⟨(hO.1 h).2.1, (hO.1 h).2.2, rfl⟩))⟩
    | otherException h => exact ⟨_, (hO.1 h).1, .inr (.inr (.inr ⟨(hO.1 h).2.1, (hO.1 h).2.2, rfl⟩))⟩
  have some' : ∃ name, SortedUnder bad name r := by
    by_cases hi : r.Indexable bad
    · cases he : r.exception with
      | false => exact ⟨_, .filters (hI.2 ⟨he, hi⟩)⟩
      | true => exact ⟨_, .exceptionFilters (hI.2 ⟨he, hi⟩)⟩
    · by_cases hn : ∃ dl, r.value bs%"domain=" = some dl ∧ negative dl = []
      · cases he : r.exception with
        | false => exact ⟨_, .domainOnly (hD.2 ⟨he, hi, hn⟩)⟩
        | true => exact ⟨_, .domainOnlyException (hD.2 ⟨he, hi, hn⟩)⟩
      · by_cases hp : ∃ dl, r.value bs%"domain=" = some dl ∧ positive dl = []
        · cases he : r.exception with
          | false => exact ⟨_, .antiDomainOnly (hA.2 ⟨he, hi, hp⟩)⟩
          | true => exact ⟨_, .antiDomainOnlyException (hA.2 ⟨he, hi, hp⟩)⟩
        · have ho : ∀ dl, r.value bs%"domain=" = some dl → positive dl ≠ [] ∧ negative dl ≠ [] :=
            fun dl hv => ⟨fun h => hp ⟨dl, hv, h⟩, fun h => hn ⟨dl, hv, h⟩⟩
          cases he : r.exception with
          | false => exact ⟨_, .other (hO.2 ⟨he, hi, ho⟩)⟩
          | true => exact ⟨_, .otherException (hO.2 ⟨he, hi, ho⟩)⟩
  obtain ⟨name, hname⟩ := some'
  refine ⟨name, hname, fun name' hname' => ?_⟩
  obtain ⟨s, rfl, h⟩ := key name hname
  obtain ⟨s', rfl, h'⟩ := key name' hname'
  rcases h with ⟨a, e⟩ | ⟨a, ⟨dl, b, c⟩, e⟩ | ⟨a, ⟨dl, b, c⟩, e⟩ | ⟨a, b, e⟩ <;>
    rcases h' with ⟨a', e'⟩ | ⟨a', ⟨dl', b', c'⟩, e'⟩ | ⟨a', ⟨dl', b', c'⟩, e'⟩ | ⟨a', b', e'⟩ <;>
    first
    | exact e'.trans e.symm
    | exact absurd a' a
    | exact absurd a a'
    | exact absurd c (b' dl b).1
    | exact absurd c (b' dl b).2
    | exact absurd c' (b dl' b').1
    | exact absurd c' (b dl' b').2
    | (rw [b] at b'; cases b'; exact (hpn _ c c').elim)
    | (rw [b] at b'; cases b'; exact (hpn _ c' c).elim)

/-! ### C108 -/

theorem pointwise_weaken {A B : Type} {R S : A → B → Prop} {l : List A} {m : List B} (h : Pointwise R l m) (hs : ∀ a ∈ l, ∀ b, R a b → S a b) :
    Pointwise S l m := by
  induction h with
  | nil => exact .nil
  | cons h _ ih => exact .cons (hs _ (.head _) _ h) (ih fun a ha => hs a (.tail _ ha))

theorem readAs_pages {P : Filter → Prop} {Q : PageText → Prop} [DecidablePred P] [DecidablePred Q] (hP : ∀ f, P f → f.filterType ∈ [FTElementHiding, FTElementHidingException, FTHTMLFiltering])
    (hQ : ∀ l f, PageRead l f → (P f ↔ Q l)) {fs : List Filter} {rs : List RuleText} {ps : List PageText} (h : ReadAs fs rs ps) :
    Pointwise (fun l f => PageRead l f ∧ l.WellFormed) (ps.filter fun l => decide (Q l)) (fs.filter fun f => decide (P f)) := by
  induction h with
  | nil => exact .nil
  | @idle f _ _ _ hf _ ih =>
    rw [List.filter_cons_of_neg]; exact ih
    rw [decide_eq_true_iff]
    intro hp
    have := hP f hp
    rcases hf with h | h <;> rw [h] at this <;> revert this <;> decide
  | @page f _ _ _ l hl hf _ ih =>
    have := hQ l f hf
    by_cases h : Q l
    · rw [List.filter_cons_of_pos (by simpa using h), List.filter_cons_of_pos (by simpa using this.2 h)]
      exact .cons ⟨hf, hl⟩ ih
    · rw [List.filter_cons_of_neg (by simpa using h), List.filter_cons_of_neg (by simpa using fun h' => h (this.1 h'))]
      exact ih
  | rule r pr hw _ ih =>
    rw [List.filter_cons_of_neg]; exact ih
    rw [decide_eq_true_iff]
    intro hp
    have h1 := hP _ hp
    have h2 := (kind_filter r pr r.exception).2 rfl
    unfold Kind at h2
    revert h2
    simp only [List.mem_cons, List.not_mem_nil, or_false] at h1
    rcases h1 with h | h | h <;> rw [h] <;> cases r.exception <;> decide

theorem page_domains {l : PageText} (hl : l.WellFormed) :
    (match (if l.domains = [] then none else some l.domains) with
      | none => []
      | some dl => (positive dl).filter (· ≠ [])) = (if l.domains = [] ∨ l.domains.head? = some ch%'~' then [] else [l.domains]) ∧
    (match (if l.domains = [] then none else some l.domains) with
      | none => []
      | some dl => negative dl) = (if l.domains.head? = some ch%'~' then [l.domains.drop 1] else []) ∧
    ((∃ dl, (if l.domains = [] then none else some l.domains) = some dl ∧ negative dl = []) ↔
      l.domains ≠ [] ∧ l.domains.head? ≠ some ch%'~') ∧
    ((∃ dl, (if l.domains = [] then none else some l.domains) = some dl ∧ positive dl = []) ↔ l.domains.head? = some ch%'~') := by
  have hb : ch%'|' ∉ l.domains := fun h => hl.domains _ h (by decide)
  unfold positive negative
  by_cases he : l.domains = []
  · simp [he]
  · simp only [if_neg he]
    rw [splitOn_of_not_mem hb]
    by_cases ht : l.domains.head? = some ch%'~'
    · simp [ht, he, splitOn_of_not_mem hb]
    · simp [ht, he, splitOn_of_not_mem hb]

theorem reportsPage_exactly {l : PageText} (hl : l.WellFormed) {f : Filter} (hf : PageRead l f) {p : Report} (h : Describes f p) :
    ReportsPageExactly l p := by
  obtain ⟨d1, d2, d3, d4⟩ := page_domains hl
  have hx : has f.filterType FTException = false := by rw [hf.kind]; cases l.kind <;> decide
  refine ⟨?_, h.noHost hf.host, ?_, ?_, ?_, ?_, ⟨?_, ?_⟩, h.tag.trans hf.tag⟩
  · exact h.text _ ⟨hl.noNul, ⟨[], by rw [hf.text]; rfl⟩, .inl hf.len⟩
  · rw [h.domainList, hf.domains]; exact d1
  · rw [h.antiDomainList, hf.domains]; exact d2
  · rw [h.isDomainOnlyFilter, OnlyPositive, hf.domains, d3, hx]; simp
  · rw [h.isAntiDomainOnlyFilter, OnlyNegative, hf.domains, d4, hx]; simp
  · rw [← Bool.not_eq_true, h.isDomainOnlyExceptionFilter, hx]; simp
  · rw [← Bool.not_eq_true, h.isAntiDomainOnlyExceptionFilter, hx]; simp

/-- For lines with at most one domain that are not exceptions, what is reported is what should be. -/
theorem reportsPage_of {l : PageText} {p : Report} (h : ReportsPageExactly l p) (hc : ch%',' ∉ l.domains)
    (hk : l.kind = .unhide → l.selector.head? ≠ some ch%'#') : ReportsPage l p := by
  have hm : l.meant = l.selector := by
    unfold PageText.meant
    rw [if_neg fun h => hk h.1 h.2]
  have h1 : l.listed = if l.domains = [] ∨ l.domains.head? = some ch%'~' then [] else [l.domains] := by
    unfold PageText.listed
    rw [splitOn_of_not_mem hc]
    by_cases he : l.domains = [] <;> by_cases ht : l.domains.head? = some ch%'~' <;> simp [ht, he]
  have h2 : l.excluded = if l.domains.head? = some ch%'~' then [l.domains.drop 1] else [] := by
    unfold PageText.excluded
    rw [splitOn_of_not_mem hc]
    by_cases ht : l.domains.head? = some ch%'~' <;> simp [ht]
  have h3 : l.domains.head? = some ch%'~' → l.domains ≠ [] := by intro h h'; rw [h'] at h; cases h
  refine ⟨hm ▸ h.text, h.host, h.listed.trans h1.symm, h.excluded.trans h2.symm, h.domainOnly.trans ?_, h.antiDomainOnly.trans ?_, h.exceptions, h.tag⟩
  · rw [h2]
    by_cases ht : l.domains.head? = some ch%'~' <;> simp [ht]
  · rw [h1]
    by_cases he : l.domains = [] <;> by_cases ht : l.domains.head? = some ch%'~' <;> simp [ht, he]

theorem under_pages (bad : List Bytes) (f : Filter) :
    (Under bad bs%"cosmeticFilters" f ↔ f.hasUnsupportedOptions = false ∧ (f.filterType = FTElementHiding ∨ f.filterType = FTElementHidingException)) ∧
    (Under bad bs%"htmlFilters" f ↔ f.hasUnsupportedOptions = false ∧ f.filterType = FTHTMLFiltering) := by
  refine ⟨⟨fun hu => ?_, fun ⟨a, b⟩ => .cosmetic a b⟩, ⟨fun hu => ?_, fun ⟨a, b⟩ => .html a b⟩⟩
  · generalize hn : bs%"cosmeticFilters" = name at hu
    cases hu with
    | cosmetic a b => exact ⟨a, b⟩
    | _ => exact absurd hn (by decide)
  · generalize hn : bs%"htmlFilters" = name at hu
    cases hu with
    | html a b => exact ⟨a, b⟩
    | _ => exact absurd hn (by decide)

open Classical in
/-- What is reported about lines about the contents of pages, for all of them: after any calls on a new client which load
lists of rules, comments and such lines, `getFilters` reports under `cosmeticFilters` those lines of the
lists which hide elements and the exceptions, and under `htmlFilters` the HTML rules, in the order in which they are written. -/
theorem C108_exactly {E : Env} {ops : List NodeOp} {as : List NodeAnswer} {w : NodeClient E} (h : nodeRun { client := Client.fresh E } ops = .ok (as, w))
    {rs : List RuleText} {ls : List PageText} (hw : CallsLoad E.bad ops rs ls) :
    (∃ ps w', w.getFilters bs%"cosmeticFilters" = .ok (ps, w') ∧ Pointwise ReportsPageExactly (ls.filter fun l => l.kind ≠ .html) ps) ∧
    (∃ ps w', w.getFilters bs%"htmlFilters" = .ok (ps, w') ∧ Pointwise ReportsPageExactly (ls.filter fun l => l.kind = .html) ps) := by
  have h0 := written_noNul hw
  obtain ⟨as', c, fs', h1, -, -⟩ := nodeRun_inv (w := { client := Client.fresh E }) ⟨SameButLengths.refl _, fun _ _ _ h => nomatch h⟩ History.new h0 h
  obtain ⟨fs, h2, h3⟩ := written_history hw h1
  constructor
  · obtain ⟨ps, w', h4, h5⟩ := C57_getFilters_reports_partial h h0 h1 h2 bs%"cosmeticFilters"
    have hp := readAs_pages (P := Under E.bad bs%"cosmeticFilters") (Q := fun l => l.kind ≠ .html)
      (fun f hf => by rcases ((under_pages E.bad f).1.1 hf).2 with h | h <;> rw [h] <;> decide)
      (fun l f hr => by
        rw [(under_pages E.bad f).1, hr.kind]
        cases l.kind <;> simp [hr.supported] <;> decide) h3
    exact ⟨ps, w', h4, pointwise_comp (fun l f p hr hd => reportsPage_exactly (l := l) hr.2 (f := f) hr.1 (p := p) hd) hp h5⟩
  · obtain ⟨ps, w', h4, h5⟩ := C57_getFilters_reports_partial h h0 h1 h2 bs%"htmlFilters"
    have hp := readAs_pages (P := Under E.bad bs%"htmlFilters") (Q := fun l => l.kind = .html)
      (fun f hf => by rw [((under_pages E.bad f).2.1 hf).2]; decide)
      (fun l f hr => by
        rw [(under_pages E.bad f).2, hr.kind]
        cases l.kind <;> simp [hr.supported] <;> decide) h3
    exact ⟨ps, w', h4, pointwise_comp (fun l f p hr hd => reportsPage_exactly (l := l) hr.2 (f := f) hr.1 (p := p) hd) hp h5⟩

/-- **C108**, except for lines with several domains and exceptions written `#@#`: the lines are reported in
their order, with the selector and the domains which they are written with. -/
theorem C108_reports_partial {E : Env} {ops : List NodeOp} {as : List NodeAnswer} {w : NodeClient E} (h : nodeRun { client := Client.fresh E } ops = .ok (as, w))
    {rs : List RuleText} {ls : List PageText} (hw : CallsLoad E.bad ops rs ls) :
    (∃ ps w', w.getFilters bs%"cosmeticFilters" = .ok (ps, w') ∧
      Pointwise (fun l p => ch%',' ∉ l.domains → (l.kind = .unhide → l.selector.head? ≠ some ch%'#') → ReportsPage l p)
        (ls.filter fun l => l.kind ≠ .html) ps) ∧
    (∃ ps w', w.getFilters bs%"htmlFilters" = .ok (ps, w') ∧
      Pointwise (fun l p => ch%',' ∉ l.domains → ReportsPage l p) (ls.filter fun l => l.kind = .html) ps) := by
  obtain ⟨⟨ps, w', h1, h2⟩, ⟨ps', w'', h3, h4⟩⟩ := C108_exactly h hw
  refine ⟨⟨ps, w', h1, pointwise_weaken h2 fun l _ p h hc hk => reportsPage_of h hc hk⟩, ⟨ps', w'', h3, pointwise_weaken h4 fun l hl p h hc =>
    reportsPage_of h hc fun hk => ?_⟩⟩
  have := (List.mem_filter.1 hl).2
  rw [decide_eq_true_iff, hk] at this
  cases this

/-- two lists, with a call in between, and another one before a `clear` -/
private def reportOps : List NodeOp := [.op (.parse bs%"&x=" false), .op .clear, .op (.parse bs%"! one\n||ads.com^\n&b=$domain=~x.com,tag=t\n##.ad" false),
  .getFilters bs%"filters", .op (.parse bs%"&c=$domain=~y.com|~z.com" true)]

example (bad : List Bytes) : CallsLoad bad reportOps [{ anchor := .host, text := bs%"ads.com^" }, { text := bs%"&b=", options := some bs%"domain=~x.com,tag=t" },
    { text := bs%"&c=", options := some bs%"domain=~y.com|~z.com" }] [{ domains := [], kind := .hide, selector := bs%".ad" }] := by
  refine CallsLoad.parse (ops := reportOps.take 4) (rs := [_, _]) (rs' := [_]) (ps := [_]) (ps' := []) (CallsLoad.other (ops := reportOps.take 3)
    (CallsLoad.parse (ops := reportOps.take 2) (rs := []) (rs' := [_, _]) (ps := []) (ps' := [_]) (CallsLoad.clear (ops := reportOps.take 1)
      (CallsLoad.parse (ops := []) (rs' := [{ text := bs%"&x=" }]) (ps' := []) .new (by decide) ?_ (plainRules_sound (by decide +kernel)))) (by decide) ?_
        (plainRules_sound (by decide +kernel))) (by simp) (by simp)) (by decide) ?_ (plainRules_sound (by decide +kernel))
  · rw [show lines bs%"&x=" = [bs%"&x="] by decide +kernel]
    exact .rule { text := bs%"&x=" } .nil
  · rw [show lines bs%"! one\n||ads.com^\n&b=$domain=~x.com,tag=t\n##.ad" =
      [bs%"! one", bs%"||ads.com^", bs%"&b=$domain=~x.com,tag=t", bs%"##.ad"] by decide +kernel]
    exact .idle (.inr ⟨[], bs%" one", by decide, by decide, .inl rfl⟩) (.rule { anchor := .host, text := bs%"ads.com^" }
      (.rule { text := bs%"&b=", options := some bs%"domain=~x.com,tag=t" } (.page { domains := [], kind := .hide, selector := bs%".ad" }
        ⟨by decide, by decide, by simp, by decide, by decide⟩ .nil)))
  · rw [show lines bs%"&c=$domain=~y.com|~z.com" = [bs%"&c=$domain=~y.com|~z.com"] by decide +kernel]
    exact .rule { text := bs%"&c=", options := some bs%"domain=~y.com|~z.com" } .nil

example : (do
    let (_, w) ← nodeRun { client := Client.fresh toyEnv } reportOps
    let (ps, _) ← w.getFilters bs%"noFingerprintAntiDomainOnlyFilters"
    pure ps) = .ok
      [{ data := some bs%"&b=", antiDomainList := [bs%"x.com"], isAntiDomainOnlyFilter := true, tag := bs%"t" },
       { data := some bs%"&c=", antiDomainList := [bs%"y.com", bs%"z.com"], isAntiDomainOnlyFilter := true }] := by decide +kernel

/-- The calls that load one list. -/
def pageOps (input : Bytes) : List NodeOp := [.op (.parse input false)]

private theorem pageOps_load (bad : List Bytes) {input : Bytes} (h0 : 0 ∉ input) {ps : List PageText} (hc : Contents (lines input) [] ps) :
    CallsLoad bad (pageOps input) [] ps :=
  CallsLoad.parse (ops := []) (rs := []) (ps := []) .new h0 hc (plainRules_sound (by decide +kernel))

private def pageReports (E : Env) (input name : Bytes) : Res (List Report) := do
  let (_, w) ← nodeRun { client := Client.fresh E } (pageOps input)
  let (ps, _) ← w.getFilters name
  pure ps

/-- The full statement of **C108** is false: a line for two domains is reported as one for a single domain, with a
comma in its name. -/
theorem C108_two_domains : ∃ (input : Bytes) (l : PageText) (p : Report), l.WellFormed ∧ (∀ bad, CallsLoad bad (pageOps input) [] [l]) ∧
    pageReports toyEnv input bs%"cosmeticFilters" = .ok [p] ∧ l.listed = [bs%"a.com", bs%"b.com"] ∧ p.domainList = [bs%"a.com,b.com"] ∧ ¬ ReportsPage l p := by
  have hw : ({ domains := bs%"a.com,b.com", kind := .hide, selector := bs%".ad" } : PageText).WellFormed :=
    ⟨by decide, by decide, by decide, by decide, by decide⟩
  refine ⟨bs%"a.com,b.com##.ad", { domains := bs%"a.com,b.com", kind := .hide, selector := bs%".ad" },
    { data := some bs%".ad", domainList := [bs%"a.com,b.com"], isDomainOnlyFilter := true }, hw,
    fun bad => pageOps_load bad (by decide) ?_, by decide +kernel, by decide +kernel, rfl, fun h => ?_⟩
  · rw [show lines bs%"a.com,b.com##.ad" = [bs%"a.com,b.com##.ad"] by decide +kernel]
    exact .page _ hw .nil
  · exact absurd h.listed (by decide +kernel)

/-- Also an exception: its selector is reported with a hash sign in front. -/
theorem C108_exceptions : ∃ (input : Bytes) (l : PageText) (p : Report), l.WellFormed ∧ (∀ bad, CallsLoad bad (pageOps input) [] [l]) ∧
    pageReports toyEnv input bs%"cosmeticFilters" = .ok [p] ∧ l.meant = bs%".ad" ∧ p.data = some bs%"#.ad" ∧ ¬ ReportsPage l p := by
  have hw : ({ domains := bs%"a.com", kind := .unhide, selector := bs%"#.ad" } : PageText).WellFormed :=
    ⟨by decide, by decide, by decide, by decide, by decide⟩
  refine ⟨bs%"a.com#@#.ad", { domains := bs%"a.com", kind := .unhide, selector := bs%"#.ad" },
    { data := some bs%"#.ad", domainList := [bs%"a.com"], isDomainOnlyFilter := true }, hw,
    fun bad => pageOps_load bad (by decide) ?_, by decide +kernel, by decide +kernel, rfl, fun h => ?_⟩
  · rw [show lines bs%"a.com#@#.ad" = [bs%"a.com#@#.ad"] by decide +kernel]
    exact .page _ hw .nil
  · exact absurd h.text (by decide +kernel)

example : pageReports toyEnv bs%"~a.com##.ad\n! x\nb.com$$script\n##h1" bs%"cosmeticFilters" = .ok
    [{ data := some bs%".ad", antiDomainList := [bs%"a.com"], isAntiDomainOnlyFilter := true }, { data := some bs%"h1" }] ∧
    pageReports toyEnv bs%"~a.com##.ad\n! x\nb.com$$script\n##h1" bs%"htmlFilters" = .ok
    [{ data := some bs%"script", domainList := [bs%"b.com"], isDomainOnlyFilter := true }] := by decide +kernel

end AdBlock
