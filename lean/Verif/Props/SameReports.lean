import Verif.SpecSameReports
import Verif.Props.ReportsSaved
import Verif.Props.SameData
/-
Clients which write the same data report the same rules (C110).
-/
namespace AdBlock
open Spec

theorem likeReport_refl (p : Report) : LikeReport p p := ⟨rfl, rfl, rfl⟩

theorem likeReport_symm {p p' : Report} (h : LikeReport p p') : LikeReport p' p :=
  ⟨h.text.symm, h.host.symm, by
    have := h.rest
    cases p
    cases p'
    simp only [Report.mk.injEq] at this ⊢
    simp [this]⟩

theorem likeReport_trans {p p' p'' : Report} (h : LikeReport p p') (h' : LikeReport p' p'') : LikeReport p p'' :=
  ⟨h'.text.trans h.text, h'.host.trans h.host, by
    have h1 := h.rest
    have h2 := h'.rest
    cases p
    cases p'
    cases p''
    simp only [Report.mk.injEq] at h1 h2 ⊢
    simp [h1, h2]⟩

/-- The text of a rule determines what is to be reported. -/
theorem reportsRule_same {r : RuleText} {p p' : Report} (h : ReportsRule r p) (h' : ReportsRule r p') : LikeReport p p' := by
  have text : ∀ {p}, ReportsRule r p → p.data.getD [] = r.text := by
    intro p h
    rcases h.text with h | ⟨h1, h2⟩
    · rw [h]; rfl
    · rw [h1, h2]; rfl
  have host : ∀ {p}, ReportsRule r p → p.host.getD [] = if r.anchor = .host then r.hostPart else [] := by
    intro p h
    split
    · rename_i hh
      rcases h.host hh with h | ⟨h1, h2⟩
      · rw [h]; rfl
      · rw [h1, h2]; rfl
    · rename_i hh
      rw [h.noHost hh]; rfl
  refine ⟨(text h').trans (text h).symm, (host h').trans (host h).symm, ?_⟩
  have e1 : p'.isDomainOnlyFilter = p.isDomainOnlyFilter := by rw [Bool.eq_iff_iff, h.domainOnly, h'.domainOnly]
  have e2 : p'.isAntiDomainOnlyFilter = p.isAntiDomainOnlyFilter := by rw [Bool.eq_iff_iff, h.antiDomainOnly, h'.antiDomainOnly]
  have e3 : p'.isDomainOnlyExceptionFilter = p.isDomainOnlyExceptionFilter := by
    rw [Bool.eq_iff_iff, h.domainOnlyException, h'.domainOnlyException]
  have e4 : p'.isAntiDomainOnlyExceptionFilter = p.isAntiDomainOnlyExceptionFilter := by
    rw [Bool.eq_iff_iff, h.antiDomainOnlyException, h'.antiDomainOnlyException]
  have e5 : p'.domainList = p.domainList ∧ p'.antiDomainList = p.antiDomainList := by
    cases hv : r.value bs%"domain=" with
    | none => exact ⟨(h'.noDomains hv).1.trans (h.noDomains hv).1.symm, (h'.noDomains hv).2.trans (h.noDomains hv).2.symm⟩
    | some dl => exact ⟨(h'.domains dl hv).1.trans (h.domains dl hv).1.symm, (h'.domains dl hv).2.trans (h.domains dl hv).2.symm⟩
  have e6 : p'.tag = p.tag := h'.tag.trans h.tag.symm
  cases p
  cases p'
  simp only [Report.mk.injEq] at e1 e2 e3 e4 e5 e6 ⊢
  simp [e1, e2, e3, e4, e5, e6]

theorem pointwise_reports {rs : List RuleText} {ps qs : List Report} (hs : ∀ r ∈ rs, r.SavableDomains) (h : Pointwise ReportsRule rs ps)
    (h' : Pointwise (fun r p => r.SavableDomains → ReportsRule r p) rs qs) : Pointwise LikeReport ps qs := by
  induction h generalizing qs with
  | nil => cases h'; exact .nil
  | cons h _ ih =>
    cases h' with
    | cons h1 h2 => exact .cons (reportsRule_same h (h1 (hs _ (by simp)))) (ih (fun r hr => hs r (by simp [hr])) h2)

theorem pointwise_likeReport {ps qs rs : List Report} (h : Pointwise LikeReport ps qs) (h' : Pointwise LikeReport rs qs) : Pointwise LikeReport ps rs := by
  induction h generalizing rs with
  | nil => cases h'; exact .nil
  | cons h _ ih =>
    cases h' with
    | cons h1 h2 => exact .cons (likeReport_trans h (likeReport_symm h1)) (ih h2)

/-- **C110**, for rules whose domains survive being saved (see C109): clients of a program in JavaScript which write the same data, whatever has been done
with them before, report the same rules, in the same order, under every name except those of the rules which are left out of the data. -/
theorem C110_reports_partial {E : Env} {ops ops' : List NodeOp} {as as' : List NodeAnswer} {v w : NodeClient E}
    (h : nodeRun { client := Client.fresh E } ops = .ok (as, v)) (h' : nodeRun { client := Client.fresh E } ops' = .ok (as', w))
    {rs rs' : List RuleText} {ls ls' : List PageText} (hv : CallsLoad E.bad ops rs ls) (hw : CallsLoad E.bad ops' rs' ls')
    (hs : ∀ r ∈ rs, r.SavableDomains) (hs' : ∀ r ∈ rs', r.SavableDomains)
    (hn : v.client.numHostAnchoredFilters < 2 ^ 31 ∧ v.client.numHostAnchoredExceptionFilters < 2 ^ 31)
    (hn' : w.client.numHostAnchoredFilters < 2 ^ 31 ∧ w.client.numHostAnchoredExceptionFilters < 2 ^ 31)
    {data : Bytes} (hd : v.client.jsSerialize = .ok data) (hd' : w.client.jsSerialize = .ok data) (hsize : data.length < 2 ^ 31)
    {name : Bytes} (hname : name ≠ bs%"cosmeticFilters" ∧ name ≠ bs%"htmlFilters") :
    ∃ ps qs v' w', v.getFilters name = .ok (ps, v') ∧ w.getFilters name = .ok (qs, w') ∧ Pointwise LikeReport ps qs := by
  obtain ⟨ps, v', h1, h2⟩ := C107_reports h hv hname
  obtain ⟨qs, w', h3, h4⟩ := C107_reports h' hw hname
  obtain ⟨data1, k1, k2⟩ := C109_reports_partial h hv hn
  obtain ⟨data2, k3, k4⟩ := C109_reports_partial h' hw hn'
  rw [hd] at k1
  rw [hd'] at k3
  cases k1
  cases k3
  obtain ⟨d, e1, e2, -⟩ := k2 hsize (Client.fresh E)
  obtain ⟨d', e3, e4, -⟩ := k4 hsize (Client.fresh E)
  rw [e1] at e3
  cases e3
  obtain ⟨xs, x', e5, e6⟩ := e2 name hname
  obtain ⟨ys, y', e7, e8⟩ := e4 name hname
  rw [e5] at e7
  cases e7
  exact ⟨ps, qs, v', w', h1, h3, pointwise_likeReport (pointwise_reports (fun r hr => hs r (List.mem_filter.1 hr).1) h2 e6)
    (pointwise_reports (fun r hr => hs' r (List.mem_filter.1 hr).1) h4 e8)⟩

/-! ### an example, and what goes wrong otherwise -/

theorem run_pageOps {E : Env} {text : Bytes} {c : Client E} (h : (Client.fresh E).parse text false = .ok c) :
    nodeRun { client := Client.fresh E } (pageOps text) = .ok ([.op .done], { client := c }) := by
  show nodeRun { client := Client.fresh E } [.op (.parse text false)] = _
  simp only [nodeRun, nodeStep, step]
  rw [h]
  rfl

/-- **C110**, an example: two lists in which the options of a rule are in different orders are saved as the same data. -/
example : ∃ v w data, nodeRun { client := Client.fresh toyEnv } (pageOps bs%"adbanner$script,image") = .ok ([.op .done], v) ∧
    nodeRun { client := Client.fresh toyEnv } (pageOps bs%"adbanner$image,script") = .ok ([.op .done], w) ∧
    v.client.jsSerialize = .ok data ∧ w.client.jsSerialize = .ok data ∧
    ∃ ps qs v' w', v.getFilters bs%"filters" = .ok (ps, v') ∧ w.getFilters bs%"filters" = .ok (qs, w') ∧ Pointwise LikeReport ps qs := by
  let f : Filter := { data := some (cstr bs%"adbanner"), filterOption := FOScript ||| FOImage }
  have hf : parseFilter toyEnv.bad bs%"adbanner$script,image" 0 false true = .ok (f, .addFingerprint bs%"adbann") := by decide +kernel
  have hg : parseFilter toyEnv.bad bs%"adbanner$image,script" 0 false true = .ok (f, .addFingerprint bs%"adbann") := by decide +kernel
  have h1 := parse_oneIndexed (E := toyEnv) (by decide +kernel) hf (by decide +kernel) (by decide +kernel)
  have h2 := parse_oneIndexed (E := toyEnv) (by decide +kernel) hg (by decide +kernel) (by decide +kernel)
  have r1 : Reads toyEnv.bad false (lines bs%"adbanner$script,image") [f] := by
    rw [show lines bs%"adbanner$script,image" = [bs%"adbanner$script,image"] by decide +kernel]
    exact .cons hf .nil
  have hs : (oneIndexed toyEnv f bs%"adbann").jsSerialize = .ok ((oneIndexed toyEnv f bs%"adbann").bytes true true) := by
    unfold Client.jsSerialize
    rw [serialize_eq (history_written (.parse .new (by decide) h1 r1)) true true]
    rfl
  have hw : ∀ o, (∀ r ∈ [({ text := bs%"adbanner", options := some o } : RuleText)], plainRule r = true) →
      lines (bs%"adbanner$" ++ o) = [bs%"adbanner$" ++ o] → 0 ∉ bs%"adbanner$" ++ o →
      CallsLoad toyEnv.bad (pageOps (bs%"adbanner$" ++ o)) [{ text := bs%"adbanner", options := some o }] [] := fun o hp hl h0 =>
    CallsLoad.parse (ops := []) (rs := []) (ps := []) .new h0 (by rw [hl]; exact .rule { text := bs%"adbanner", options := some o } .nil) (plainRules_sound hp)
  have hd : ∀ o, ({ text := bs%"adbanner", options := some o } : RuleText).value bs%"domain=" = none →
      ∀ r ∈ [({ text := bs%"adbanner", options := some o } : RuleText)], r.SavableDomains := fun o hv r hr dl h => by
    rw [List.mem_singleton.1 hr, hv] at h
    cases h
  exact ⟨_, _, _, run_pageOps h1, run_pageOps h2, hs, hs, C110_reports_partial (run_pageOps h1) (run_pageOps h2)
    (hw bs%"script,image" (by decide +kernel) (by decide +kernel) (by decide)) (hw bs%"image,script" (by decide +kernel) (by decide +kernel) (by decide))
    (hd _ (by decide +kernel)) (hd _ (by decide +kernel)) (by decide +kernel) (by decide +kernel) hs hs (by decide +kernel) (by decide)⟩

/-- The full statement of **C110** is false for `getFilters`, too: data do not tell whether a list of domains is empty or absent. -/
theorem C110_reports_counterexample : ∃ (v w : NodeClient toyEnv) (data : Bytes) (p q : Report) (v' w' : NodeClient toyEnv),
    nodeRun { client := Client.fresh toyEnv } (pageOps bs%"adbanner$domain=") = .ok ([.op .done], v) ∧
    nodeRun { client := Client.fresh toyEnv } (pageOps bs%"adbanner") = .ok ([.op .done], w) ∧
    v.client.jsSerialize = .ok data ∧ w.client.jsSerialize = .ok data ∧
    v.getFilters bs%"filters" = .ok ([p], v') ∧ w.getFilters bs%"filters" = .ok ([q], w') ∧
    p.isDomainOnlyFilter = true ∧ q.isDomainOnlyFilter = false := by
  obtain ⟨c, d, s, h1, h2, h3, h4, -⟩ := C110_counterexample
  have key : ∀ {text : Bytes} {x : Client toyEnv} {b : Bool}, (Client.fresh toyEnv).parse text false = .ok x →
      ((Client.fresh toyEnv).parse text false >>= fun c => (fun r => r.1.map Report.isDomainOnlyFilter) <$>
        ({ client := c } : NodeClient toyEnv).getFilters bs%"filters") = .ok [b] →
      ∃ p x', ({ client := x } : NodeClient toyEnv).getFilters bs%"filters" = .ok ([p], x') ∧ p.isDomainOnlyFilter = b := by
    intro text x b hx h
    rw [hx, Res.bind_ok] at h
    cases hg : ({ client := x } : NodeClient toyEnv).getFilters bs%"filters" with
    | ub u => rw [hg] at h; cases h
    | ok r =>
      rw [hg] at h
      obtain ⟨ps, x'⟩ := r
      injection h with h
      match ps, h with
      | [p], h => injection h with h _; exact ⟨p, x', rfl, h⟩
  obtain ⟨p, v', k1, k2⟩ := key (b := true) h1 (by decide +kernel)
  obtain ⟨q, w', k3, k4⟩ := key (b := false) h2 (by decide +kernel)
  refine ⟨_, _, s.buffer, p, q, v', w', run_pageOps h1, run_pageOps h2, ?_, ?_, k1, k3, k2, k4⟩
  · unfold Client.jsSerialize
    rw [h3]
    rfl
  · unfold Client.jsSerialize
    rw [h4]
    rfl

end AdBlock
