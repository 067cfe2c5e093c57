import Verif.Lemmas.Cached
import Verif.Lemmas.SerializeHistory
import Verif.Lemmas.Reference
/-
What `getFilters` reports.
-/
namespace AdBlock
open Spec

/-! ### texts -/

theorem copyText_eq {s : Bytes} (h : 0 ∉ s) (q : Ptr) : copyText (s ++ q) s.length = .ok s := by
  unfold copyText
  rw [if_pos (by simp), List.take_left]
  exact cstrAt_cstr h []

theorem reportText_eq {s : Bytes} (h : 0 ∉ s) (q : Ptr) {len : Option Nat} (hl : len = none ∨ len = some s.length) :
    ∃ r, reportText (some (s ++ 0 :: q)) len = .ok (r, some s.length) ∧ (r = some s ∨ s = [] ∧ r = none) := by
  unfold reportText
  by_cases h0 : len = some 0
  · have hs : s.length = 0 := by
      rcases hl with hl | hl
      · rw [hl] at h0; cases h0
      · rw [hl] at h0; simpa using h0
    refine ⟨none, ?_, .inr ⟨List.length_eq_zero_iff.1 hs, rfl⟩⟩
    simp only
    rw [if_pos h0, h0, hs]
    rfl
  · refine ⟨some s, ?_, .inl rfl⟩
    simp only
    rw [if_neg h0]
    rcases hl with rfl | rfl
    · simp only [strlen_cstr h, Res.bind_ok, copyText_eq h, Res.pure_eq]
    · simp only [Res.bind_ok, copyText_eq h, Res.pure_eq]

/-! ### domains -/

theorem domainText_eq {pre cur rest : Bytes} (h : 0 ∉ cur) :
    domainText (pre ++ cur ++ rest) pre.length cur.length = .ok cur := by
  unfold domainText cstr
  rw [if_neg (by simp; omega), if_neg (by simp; omega)]
  have e : ((pre ++ cur ++ rest ++ [0]).drop pre.length).take cur.length = cur := by simp
  rw [e]
  obtain ⟨n, hn⟩ : ∃ n, (pre ++ cur ++ rest).length + 1 - cur.length = n + 1 := ⟨(pre ++ rest).length, by simp; omega⟩
  rw [hn, List.replicate_succ]
  exact cstrAt_cstr h _

theorem endOfDomain_eq {dl pre cur rest : Bytes} (hdl : dl = pre ++ cur ++ rest) (h : 0 ∉ cur) (ds as : List Bytes) :
    reportDomainsLoop.endOfDomain dl pre.length cur.length ds as =
      .ok (ds ++ ([cur].filter fun s => s.head? ≠ some ch%'~').filter (· ≠ []),
        as ++ ([cur].filter fun s => s.head? = some ch%'~').map (·.drop 1)) := by
  subst hdl
  unfold reportDomainsLoop.endOfDomain
  have e : (cstr (pre ++ cur ++ rest)).drop pre.length = cur ++ (rest ++ [0]) := by simp [cstr]
  rw [e]
  cases cur with
  | nil =>
    obtain ⟨c, q, hc⟩ : ∃ c q, rest ++ [0] = c :: q := List.exists_cons_of_ne_nil (by simp)
    simp [hc, rd]
  | cons c cur =>
    simp only [List.cons_append, rd, List.getElem?_cons_zero, Res.bind_ok, List.length_cons, Nat.zero_lt_succ, true_and]
    by_cases hc : c = ch%'~'
    · rw [if_neg (by simp [hc]), if_pos hc]
      have e : pre ++ c :: cur ++ rest = (pre ++ [c]) ++ cur ++ rest := by simp
      have e2 : pre.length + 1 = (pre ++ [c]).length := by simp
      rw [e, e2, Nat.add_sub_cancel, domainText_eq (fun h' => h (by simp [h']))]
      simp [hc]
    · rw [if_pos hc]
      have := domainText_eq (pre := pre) (cur := c :: cur) (rest := rest) h
      rw [List.length_cons] at this
      rw [this]
      simp [hc]

theorem reportDomainsLoop_eq {dl : Bytes} (h : 0 ∉ dl) : ∀ {rest pre cur : Bytes} (ds as : List Bytes), dl = pre ++ cur ++ rest → ch%'|' ∉ cur →
    reportDomainsLoop dl pre.length cur.length ds as rest =
      .ok (ds ++ (positive (cur ++ rest)).filter (· ≠ []), as ++ negative (cur ++ rest)) := by
  intro rest
  induction rest with
  | nil =>
    intro pre cur ds as hdl hb
    have h0 : 0 ∉ cur := fun h' => h (by rw [hdl]; simp [h'])
    simp only [reportDomainsLoop]
    rw [endOfDomain_eq hdl h0, List.append_nil]
    unfold positive negative
    rw [splitOn_of_not_mem hb]
  | cons c rest ih =>
    intro pre cur ds as hdl hb
    have h0 : 0 ∉ cur := fun h' => h (by rw [hdl]; simp [h'])
    simp only [reportDomainsLoop]
    by_cases hc : c = ch%'|'
    · rw [if_pos hc, endOfDomain_eq hdl h0, Res.bind_ok]
      have := ih (pre := pre ++ cur ++ [c]) (cur := []) (ds ++ ([cur].filter fun s => s.head? ≠ some ch%'~').filter (· ≠ []))
        (as ++ ([cur].filter fun s => s.head? = some ch%'~').map (·.drop 1)) (by rw [hdl]; simp) (by simp)
      rw [show (pre ++ cur ++ [c]).length = pre.length + cur.length + 1 by simp; omega] at this
      simp only [List.length_nil] at this
      simp only
      rw [this, hc]
      unfold positive negative
      rw [splitOn_append_sep hb, List.nil_append]
      congr 1
      rw [Prod.mk.injEq]
      constructor
      · rw [List.append_assoc, ← List.filter_append, ← List.filter_append]; rfl
      · rw [List.append_assoc, ← List.map_append, ← List.filter_append]; rfl
    · rw [if_neg hc]
      have := ih (pre := pre) (cur := cur ++ [c]) ds as (by rw [hdl]; simp) (by
        simp only [List.mem_append, List.mem_singleton]
        rintro (h | h)
        · exact hb h
        · exact hc h.symm)
      rw [List.length_append, List.length_singleton] at this
      rw [this]
      simp

theorem reportDomains_eq {dl : Bytes} (h : 0 ∉ dl) :
    reportDomains (some dl) = .ok ((positive dl).filter (· ≠ []), negative dl) := by
  have := reportDomainsLoop_eq h (rest := dl) (pre := []) (cur := []) [] [] (by simp) (by simp)
  simpa [reportDomains] using this

/-! ### one rule -/

theorem has_bit (x : Mask) {m : Mask} {k : Nat} (hm : m = BitVec.twoPow 32 k) : has x m = x.getLsbD k := by
  subst hm
  unfold has
  rw [BitVec.and_twoPow]
  cases h : x.getLsbD k with
  | false => simp
  | true =>
    have hk : k < 32 := by
      by_cases hk : k < 32
      · exact hk
      · rw [BitVec.getLsbD_of_ge _ _ (by omega)] at h; cases h
    simp only [↓reduceIte, bne_iff_ne, ne_eq]
    intro h0
    have := congrArg (·.getLsbD k) h0
    simp [hk] at this

theorem has_not_exception (x : Mask) : has (~~~ x) FTException = !has x FTException := by
  rw [has_bit _ (k := 7) (by decide), has_bit _ (k := 7) (by decide)]
  simp

/-- a stored length of a host -/
def HostLength (f : Filter) (n : Option Nat) : Prop := n = none ∨ ∃ h, f.host = some h ∧ n = some h.length

theorem reportText_memo {f : Filter} {r : Option Bytes} {n : Option Nat} (h : reportText f.data f.dataLen = .ok (r, n)) :
    Memo f { f with dataLen := n } := by
  have same : ∀ n, f.dataLen = n → Memo f { f with dataLen := n } := by rintro _ rfl; rfl
  cases hd : f.data with
  | none =>
    rw [hd] at h
    simp only [reportText, Res.pure_eq, Res.ok.injEq, Prod.mk.injEq] at h
    rw [← hd]
    exact same n h.2
  | some d =>
    rw [hd] at h
    simp only [reportText] at h
    split at h
    · simp only [Res.pure_eq, Res.ok.injEq, Prod.mk.injEq] at h
      rw [← hd]
      exact same n h.2
    · cases hl : f.dataLen with
      | some k =>
        rw [hl] at h
        simp only [Res.pure_eq, Res.bind_ok] at h
        obtain ⟨s, _, h⟩ := Res.bind_eq_ok.1 h
        simp only [Res.ok.injEq, Prod.mk.injEq] at h
        rw [← hd]
        exact same n (hl.trans h.2)
      | none =>
        rw [hl] at h
        simp only at h
        obtain ⟨k, hk, h⟩ := Res.bind_eq_ok.1 h
        obtain ⟨s, _, h⟩ := Res.bind_eq_ok.1 h
        simp only [Res.pure_eq, Res.ok.injEq, Prod.mk.injEq] at h
        rw [← h.2]
        unfold Memo Filter.cached
        simp only [hd, hl, hk]

theorem reportFilter_memo {f g : Filter} {n m : Option Nat} {r : Report} (h : reportFilter f n = .ok (r, g, m)) : Memo f g := by
  unfold reportFilter at h
  obtain ⟨⟨d, k⟩, h1, h⟩ := Res.bind_eq_ok.1 h
  obtain ⟨⟨e, l⟩, h2, h⟩ := Res.bind_eq_ok.1 h
  obtain ⟨⟨a, b⟩, h3, h⟩ := Res.bind_eq_ok.1 h
  cases h
  exact reportText_memo h1

theorem reportFilter_eq {f : Filter} {n : Option Nat} (ht : f.data = none ∨ ∃ pat, HasText f pat) (hc : Clean f) (hn : HostLength f n) :
    ∃ r g m, reportFilter f n = .ok (r, g, m) ∧ Describes f r ∧ HostLength f m := by
  obtain ⟨d, k, h1, h1a, h1b⟩ : ∃ d k, reportText f.data f.dataLen = .ok (d, k) ∧
      (∀ pat, HasText f pat → d = some pat ∨ pat = [] ∧ d = none) ∧ (f.data = none → d = none) := by
    rcases ht with h0 | ⟨pat, hp0, ⟨q, hq⟩, hl⟩
    · refine ⟨none, f.dataLen, by rw [h0]; rfl, ?_, fun _ => rfl⟩
      rintro pat ⟨_, ⟨q, hq⟩, _⟩
      rw [h0] at hq; cases hq
    · obtain ⟨r, hr, hr'⟩ := reportText_eq hp0 q hl
      refine ⟨r, _, by rw [hq]; exact hr, ?_, fun h => by rw [h] at hq; cases hq⟩
      rintro pat' ⟨hp0', ⟨q', hq'⟩, hl'⟩
      rw [hq] at hq'
      have e : pat' = pat := by
        have := cstrAt_cstr hp0' q'
        have h2 := cstrAt_cstr hp0 q
        rw [← Option.some.inj hq', h2] at this
        exact (Res.ok.inj this).symm
      rw [e]
      exact hr'
  obtain ⟨e, l, h2, h2a, h2b, h2c⟩ : ∃ e l, reportText (f.host.map cstr) n = .ok (e, l) ∧
      (∀ h, f.host = some h → e = some h ∨ h = [] ∧ e = none) ∧ (f.host = none → e = none) ∧ HostLength f l := by
    cases hh : f.host with
    | none =>
      refine ⟨none, n, rfl, nofun, fun _ => rfl, ?_⟩
      exact hn
    | some h =>
      have hn' : n = none ∨ n = some h.length := by
        rcases hn with hn | ⟨h', hh', hn⟩
        · exact .inl hn
        · rw [hh] at hh'; cases hh'; exact .inr hn
      obtain ⟨r, hr, hr'⟩ := reportText_eq (hc.host h hh) [] hn'
      refine ⟨r, some h.length, hr, ?_, nofun, .inr ⟨h, hh, rfl⟩⟩
      rintro _ ⟨⟩
      exact hr'
  obtain ⟨ds, as, h3, h3a, h3b⟩ : ∃ ds as, reportDomains f.domainList = .ok (ds, as) ∧
      (ds = match f.domainList with | none => [] | some dl => (positive dl).filter (· ≠ [])) ∧
      (as = match f.domainList with | none => [] | some dl => negative dl) := by
    cases hd : f.domainList with
    | none => exact ⟨[], [], rfl, rfl, rfl⟩
    | some dl => exact ⟨_, _, reportDomains_eq (hc.domains dl hd), rfl, rfl⟩
  refine ⟨_, _, _, by unfold reportFilter; rw [h1, Res.bind_ok]; dsimp only; rw [h2, Res.bind_ok]; dsimp only; rw [h3, Res.bind_ok]; rfl, ?_, h2c⟩
  refine ⟨h1a, h1b, h2a, h2b, h3a, h3b, ?_, ?_, ?_, ?_, rfl⟩
  · simp only [has_not_exception, Bool.and_eq_true, Bool.not_eq_true', isDomainOnly_iff]
  · simp only [has_not_exception, Bool.and_eq_true, Bool.not_eq_true', isAntiDomainOnly_iff]
  · simp only [Bool.and_eq_true, isDomainOnly_iff]
  · simp only [Bool.and_eq_true, isAntiDomainOnly_iff]

/-! ### an array -/

theorem reportFilters_memo {hl : Nat → Option Nat} : ∀ {l : List Filter} {i : Nat} {rs : List (Report × Filter × Option Nat)},
    reportFilters hl i l = .ok rs → Pointwise Memo l (rs.map (·.2.1)) := by
  intro l
  induction l with
  | nil => intro i rs h; cases h; exact .nil
  | cons f l ih =>
    intro i rs h
    simp only [reportFilters] at h
    obtain ⟨⟨r, g, m⟩, h1, h⟩ := Res.bind_eq_ok.1 h
    obtain ⟨rs', h2, h⟩ := Res.bind_eq_ok.1 h
    cases h
    exact .cons (reportFilter_memo h1) (ih h2)

theorem reportFilters_eq {hl : Nat → Option Nat} : ∀ {l : List Filter} {i : Nat},
    (∀ f ∈ l, f.data = none ∨ ∃ pat, HasText f pat) → (∀ f ∈ l, Clean f) → (∀ k f, l[k]? = some f → HostLength f (hl (i + k))) →
    ∃ rs, reportFilters hl i l = .ok rs ∧ Pointwise Describes l (rs.map (·.1)) ∧ rs.length = l.length ∧
      ∀ (k : Nat) f, l[k]? = some f → ∃ r, rs[k]? = some r ∧ HostLength f r.2.2 := by
  intro l
  induction l with
  | nil => intro i _ _ _; exact ⟨[], rfl, .nil, rfl, by simp⟩
  | cons f l ih =>
    intro i ht hc hh
    obtain ⟨r, g, m, h1, h2, h3⟩ := reportFilter_eq (ht f (by simp)) (hc f (by simp)) (by simpa using hh 0 f (by simp))
    obtain ⟨rs, h4, h5, h6, h7⟩ := ih (i := i + 1) (fun f h => ht f (by simp [h])) (fun f h => hc f (by simp [h]))
      (fun k f hk => by simpa [Nat.add_comm, Nat.add_left_comm, Nat.add_assoc] using hh (k + 1) f (by simpa using hk))
    refine ⟨(r, g, m) :: rs, ?_, .cons h2 h5, by simp [h6], ?_⟩
    · simp only [reportFilters]
      rw [h1, Res.bind_ok, h4]
      rfl
    · intro k f' hk
      cases k with
      | zero =>
        simp only [List.getElem?_cons_zero, Option.some.injEq] at hk ⊢
        subst hk
        exact ⟨_, rfl, h3⟩
      | succ k => simpa using h7 k f' (by simpa using hk)

end AdBlock
