import Verif.SpecOwnership
/-
Lemmas about the ownership model: `Sound h bs` says that the blocks in use are exactly those
listed in `bs`, each once.
-/
namespace AdBlock.Own

structure Sound (h : Heap) (bs : List Nat) : Prop where
  eq : ∀ b, h.live.count b = bs.count b
  one : ∀ b, bs.count b ≤ 1
  lt : ∀ b ∈ h.live, b < h.next

theorem Sound.perm {h : Heap} {bs bs' : List Nat} (s : Sound h bs) (e : ∀ b, bs.count b = bs'.count b) : Sound h bs' :=
  ⟨fun b => (s.eq b).trans (e b), fun b => e b ▸ s.one b, s.lt⟩

theorem Sound.live {h : Heap} {bs : List Nat} (s : Sound h bs) {b : Nat} : b ∈ h.live ↔ b ∈ bs := by
  rw [← List.count_pos_iff, s.eq, List.count_pos_iff]

theorem Sound.empty : Sound {} [] := ⟨fun _ => rfl, by simp, by intro b hb; cases hb⟩

theorem Sound.nil {h : Heap} (s : Sound h []) : h.live = [] := by
  apply List.eq_nil_iff_forall_not_mem.2
  intro b hb
  cases s.live.1 hb

theorem Sound.alloc {h : Heap} {bs : List Nat} (s : Sound h bs) : Sound h.alloc.1 (h.alloc.2 :: bs) := by
  have hn : h.next ∉ bs := fun hb => Nat.lt_irrefl _ (s.lt _ (s.live.2 hb))
  refine ⟨fun b => ?_, fun b => ?_, fun b hb => ?_⟩
  · simp only [Heap.alloc, List.count_cons, s.eq]
  · simp only [Heap.alloc, List.count_cons]
    by_cases e : b = h.next
    · subst e
      have := List.count_eq_zero.2 hn
      simp [this]
    · have := s.one b
      have : ¬ h.next = b := fun x => e x.symm
      simp [*]
  · simp only [Heap.alloc, List.mem_cons] at hb
    rcases hb with rfl | hb
    · exact Nat.lt_succ_self _
    · exact Nat.lt_succ_of_lt (s.lt _ hb)

theorem Sound.free {h : Heap} {b : Nat} {bs : List Nat} (s : Sound h (b :: bs)) : ∃ h', h.free b = .ok h' ∧ Sound h' bs := by
  have hb : b ∈ h.live := s.live.2 (by simp)
  refine ⟨_, if_pos hb, fun x => ?_, fun x => ?_, fun x hx => s.lt _ (List.mem_of_mem_erase hx)⟩
  · have := s.eq x
    simp only [List.count_cons] at this
    simp only [List.count_erase, this]
    omega
  · have := s.one x
    simp only [List.count_cons] at this
    omega

/-- the block a pointer owns if it owns one -/
def bl : Pt → List Nat
  | .start b => [b]
  | _ => []

@[simp] theorem bl_null : bl .null = [] := rfl
@[simp] theorem bl_start (b : Nat) : bl (.start b) = [b] := rfl

def NotInner (p : Pt) : Prop := ∀ b, p ≠ .inner b

theorem Sound.delete {h : Heap} {p : Pt} {bs : List Nat} (hp : NotInner p) (s : Sound h (bl p ++ bs)) :
    ∃ h', h.delete p = .ok h' ∧ Sound h' bs := by
  cases p with
  | null => exact ⟨h, rfl, s⟩
  | start b => exact s.free
  | inner b => exact absurd rfl (hp b)

/-- the blocks a filter owns -/
def owns (f : OFilter) : List Nat :=
  bl f.domains ++ bl f.antiDomains ++ if f.borrowed then [] else
    bl f.data ++ bl f.ruleDefinition ++ bl f.domainList ++ bl f.tag ++ bl f.host

/-- a filter whose destructor is harmless -/
structure Tidy (f : OFilter) : Prop where
  domains : NotInner f.domains
  antiDomains : NotInner f.antiDomains
  rest : f.borrowed = false → NotInner f.data ∧ NotInner f.ruleDefinition ∧ NotInner f.domainList ∧ NotInner f.tag ∧
    NotInner f.host

theorem Sound.destroy {h : Heap} {f : OFilter} {bs : List Nat} (hf : Tidy f) (s : Sound h (owns f ++ bs)) :
    ∃ h', destroy h f = .ok h' ∧ Sound h' bs := by
  unfold Own.destroy
  unfold owns at s
  obtain ⟨h1, e1, s1⟩ := (s.perm (bs' := bl f.domains ++ (bl f.antiDomains ++ ((if f.borrowed then [] else
    bl f.data ++ bl f.ruleDefinition ++ bl f.domainList ++ bl f.tag ++ bl f.host) ++ bs)))
    (by intro b; simp only [List.count_append]; omega)).delete hf.domains
  obtain ⟨h2, e2, s2⟩ := s1.delete hf.antiDomains
  rw [e1, Res.bind_ok, e2, Res.bind_ok]
  cases hb : f.borrowed with
  | true =>
    rw [hb] at s2
    exact ⟨h2, rfl, by simpa using s2⟩
  | false =>
    rw [hb] at s2
    simp only [Bool.false_eq_true, if_false] at s2 ⊢
    obtain ⟨n1, n2, n3, n4, n5⟩ := hf.rest hb
    obtain ⟨h3, e3, s3⟩ := (s2.perm (bs' := bl f.data ++ (bl f.ruleDefinition ++ (bl f.domainList ++ (bl f.tag ++ (bl f.host ++ bs)))))
      (by intro b; simp only [List.count_append]; omega)).delete n1
    obtain ⟨h4, e4, s4⟩ := s3.delete n2
    obtain ⟨h5, e5, s5⟩ := s4.delete n3
    obtain ⟨h6, e6, s6⟩ := s5.delete n4
    obtain ⟨h7, e7, s7⟩ := s6.delete n5
    rw [e3, Res.bind_ok, e4, Res.bind_ok, e5, Res.bind_ok, e6, Res.bind_ok]
    exact ⟨h7, e7, s7⟩

theorem Sound.destroyAll {h : Heap} {fs : List OFilter} {bs : List Nat} (hf : ∀ f ∈ fs, Tidy f) (s : Sound h (fs.flatMap owns ++ bs)) :
    ∃ h', destroyAll h fs = .ok h' ∧ Sound h' bs := by
  induction fs generalizing h with
  | nil => exact ⟨h, rfl, s⟩
  | cons f fs ih =>
    rw [List.flatMap_cons, List.append_assoc] at s
    obtain ⟨h1, e1, s1⟩ := s.destroy (hf f (by simp))
    obtain ⟨h2, e2, s2⟩ := ih (fun g hg => hf g (by simp [hg])) s1
    exact ⟨h2, by rw [Own.destroyAll, e1, Res.bind_ok, e2], s2⟩

theorem Sound.freeAll {h : Heap} {as bs : List Nat} (s : Sound h (as ++ bs)) : ∃ h', freeAll h as = .ok h' ∧ Sound h' bs := by
  induction as generalizing h with
  | nil => exact ⟨h, rfl, s⟩
  | cons a as ih =>
    obtain ⟨h1, e1, s1⟩ := Sound.free (b := a) (bs := as ++ bs) s
    obtain ⟨h2, e2, s2⟩ := ih s1
    exact ⟨h2, by rw [Own.freeAll, e1, Res.bind_ok, e2], s2⟩

theorem Sound.allocIf {h : Heap} {bs : List Nat} (y : Bool) (s : Sound h bs) :
    Sound (allocIf y h).1 (bl (allocIf y h).2 ++ bs) ∧ NotInner (allocIf y h).2 ∧ ((allocIf y h).2 = .null ↔ y = false) := by
  cases y with
  | true => exact ⟨s.alloc, nofun, by simp [Own.allocIf]⟩
  | false => exact ⟨s, nofun, by simp [Own.allocIf]⟩

theorem Sound.allocN {h : Heap} {bs : List Nat} (n : Nat) (s : Sound h bs) : Sound (allocN n h).1 ((allocN n h).2 ++ bs) := by
  induction n generalizing h bs with
  | zero => exact s
  | succ n ih =>
    have := ih s.alloc
    refine this.perm fun b => ?_
    simp only [Own.allocN, List.count_append, List.count_cons]
    omega

theorem Sound.createMissing {h : Heap} {objects : List (Nat × Nat)} {bs : List Nat} (ks : List Nat)
    (s : Sound h (objects.map (·.2) ++ bs)) :
    Sound (createMissing h objects ks).1 ((createMissing h objects ks).2.map (·.2) ++ bs) := by
  induction ks generalizing h objects with
  | nil => exact s
  | cons k ks ih =>
    unfold Own.createMissing
    split
    · exact ih s
    · apply ih
      refine s.alloc.perm fun b => ?_
      simp only [List.map_append, List.map_cons, List.map_nil, List.count_append, List.count_cons, List.count_nil]
      omega

/-- a filter that owns all its strings -/
structure Plain (f : OFilter) : Prop where
  borrowed : f.borrowed = false
  domains : NotInner f.domains
  antiDomains : NotInner f.antiDomains
  data : NotInner f.data
  ruleDefinition : NotInner f.ruleDefinition
  domainList : NotInner f.domainList
  tag : NotInner f.tag
  host : NotInner f.host

theorem Plain.tidy {f : OFilter} (p : Plain f) : Tidy f :=
  ⟨p.domains, p.antiDomains, fun _ => ⟨p.data, p.ruleDefinition, p.domainList, p.tag, p.host⟩⟩

theorem Plain.empty : Plain {} := ⟨rfl, nofun, nofun, nofun, nofun, nofun, nofun, nofun⟩

theorem Plain.owns {f : OFilter} (p : Plain f) : owns f = bl f.domains ++ bl f.antiDomains ++
    (bl f.data ++ bl f.ruleDefinition ++ bl f.domainList ++ bl f.tag ++ bl f.host) := by
  unfold Own.owns
  rw [p.borrowed]
  rfl

theorem not_both {o : Bytes} (h : domainOption o = true) : tagOption o = false := by
  unfold domainOption at h
  unfold tagOption
  generalize (if o.head? = some ch%'~' then o.drop 1 else o) = p at *
  match p with
  | [] => rfl
  | x :: p =>
    simp only [List.isPrefixOf, Bool.and_eq_true, beq_iff_eq] at h
    rw [← h.1]
    rfl

theorem parseOption_eq (h : Heap) (f : OFilter) (o : Bytes) : parseOption h f o =
    if domainOption o then (h.alloc.1, { f with domainList := .start h.alloc.2 })
    else if tagOption o then
      (h.alloc.1, { f with tag := .start h.alloc.2, tagLen := (if o.head? = some ch%'~' then o.drop 1 else o).length - 4 })
    else (h, f) := rfl

theorem parseOption_sound {h : Heap} {f : OFilter} {bs : List Nat} (o : Bytes) (hf : Plain f) (s : Sound h (owns f ++ bs)) :
    Plain (parseOption h f o).2 ∧
    Sound (parseOption h f o).1 (owns (parseOption h f o).2 ++
      ((if domainOption o then bl f.domainList else []) ++ (if tagOption o then bl f.tag else []) ++ bs)) ∧
    ((parseOption h f o).2.domainList = if domainOption o then .start h.next else f.domainList) ∧
    ((parseOption h f o).2.tag = if tagOption o then .start h.next else f.tag) := by
  rw [parseOption_eq]
  by_cases hd : domainOption o
  · have ht := not_both hd
    rw [if_pos hd, if_pos hd, if_pos hd, ht]
    have hp : Plain { f with domainList := .start h.alloc.2 } :=
      ⟨hf.borrowed, hf.domains, hf.antiDomains, hf.data, hf.ruleDefinition, nofun, hf.tag, hf.host⟩
    refine ⟨hp, s.alloc.perm fun b => ?_, rfl, rfl⟩
    rw [hf.owns, hp.owns]
    simp only [List.count_append, List.count_cons, bl_null, bl_start, List.count_nil, Bool.false_eq_true, if_false]
    omega
  · have hd' : domainOption o = false := by simpa using hd
    by_cases ht : tagOption o
    · rw [if_neg hd, if_neg hd, if_neg hd, if_pos ht, if_pos ht, if_pos ht]
      have hp : Plain { f with tag := .start h.alloc.2, tagLen := (if o.head? = some ch%'~' then o.drop 1 else o).length - 4 } :=
        ⟨hf.borrowed, hf.domains, hf.antiDomains, hf.data, hf.ruleDefinition, hf.domainList, nofun, hf.host⟩
      refine ⟨hp, s.alloc.perm fun b => ?_, rfl, rfl⟩
      rw [hf.owns, hp.owns]
      simp only [List.count_append, List.count_cons, bl_null, bl_start, List.count_nil]
      omega
    · rw [if_neg hd, if_neg hd, if_neg hd, if_neg ht, if_neg ht, if_neg ht]
      exact ⟨hf, by simpa using s, rfl, rfl⟩

/-- the blocks lost by repeated options -/
theorem parseOptions_sound {h : Heap} {f : OFilter} {bs : List Nat} (os : List Bytes) (hf : Plain f) (s : Sound h (owns f ++ bs)) :
    Plain (parseOptions h f os).2 ∧ (parseOptions h f os).2.domains = f.domains ∧
    (parseOptions h f os).2.antiDomains = f.antiDomains ∧ (parseOptions h f os).2.data = f.data ∧
    (parseOptions h f os).2.ruleDefinition = f.ruleDefinition ∧
    ∃ lost, Sound (parseOptions h f os).1 (owns (parseOptions h f os).2 ++ (lost ++ bs)) ∧
      ((f.domainList = .null ∨ os.countP domainOption = 0) → (f.tag = .null ∨ os.countP tagOption = 0) →
        os.countP domainOption ≤ 1 → os.countP tagOption ≤ 1 → lost = []) := by
  induction os generalizing h f bs with
  | nil => exact ⟨hf, rfl, rfl, rfl, rfl, [], s, fun _ _ _ _ => rfl⟩
  | cons o os ih =>
    obtain ⟨p1, s1, d1, t1⟩ := parseOption_sound o hf s
    obtain ⟨p2, e1, e2, e3, e4, lost, s2, hl⟩ := ih p1 s1
    have same : (parseOption h f o).2.domains = f.domains ∧ (parseOption h f o).2.antiDomains = f.antiDomains ∧
        (parseOption h f o).2.data = f.data ∧ (parseOption h f o).2.ruleDefinition = f.ruleDefinition := by
      rw [parseOption_eq]
      by_cases hd : domainOption o
      · rw [if_pos hd]; exact ⟨rfl, rfl, rfl, rfl⟩
      · by_cases ht : tagOption o
        · rw [if_neg hd, if_pos ht]; exact ⟨rfl, rfl, rfl, rfl⟩
        · rw [if_neg hd, if_neg ht]; exact ⟨rfl, rfl, rfl, rfl⟩
    refine ⟨p2, e1.trans same.1, e2.trans same.2.1, e3.trans same.2.2.1, e4.trans same.2.2.2,
      lost ++ ((if domainOption o then bl f.domainList else []) ++ (if tagOption o then bl f.tag else [])), s2.perm ?_, ?_⟩
    · intro b
      rw [show parseOptions h f (o :: os) = parseOptions (parseOption h f o).1 (parseOption h f o).2 os from rfl]
      simp only [List.count_append]
      omega
    · intro h1 h2 h3 h4
      rw [List.countP_cons] at h1 h2 h3 h4
      have hd : (if domainOption o then bl f.domainList else []) = [] := by
        split
        · rename_i hd
          rcases h1 with h1 | h1
          · rw [h1]; rfl
          · rw [if_pos hd] at h1; omega
        · rfl
      have ht : (if tagOption o then bl f.tag else []) = [] := by
        split
        · rename_i hd
          rcases h2 with h1 | h1
          · rw [h1]; rfl
          · rw [if_pos hd] at h1; omega
        · rfl
      rw [hd, ht, List.append_nil, List.append_nil]
      apply hl
      · rw [d1]
        split at h3
        · exact .inr (by omega)
        · rename_i hd
          rw [if_neg hd]
          exact h1.imp id (by rw [if_neg hd]; omega)
      · rw [t1]
        split at h4
        · exact .inr (by omega)
        · rename_i hd
          rw [if_neg hd]
          exact h2.imp id (by rw [if_neg hd]; omega)
      · omega
      · omega

theorem parseLine_sound {h : Heap} {bs : List Nat} (l : Line) (pr : Bool) (s : Sound h bs) :
    Plain (parseLine h l pr).2 ∧ (parseLine h l pr).2.domains = .null ∧ (parseLine h l pr).2.antiDomains = .null ∧
    ∃ lost, Sound (parseLine h l pr).1 (owns (parseLine h l pr).2 ++ (lost ++ bs)) ∧ (l.NoRepeat → lost = []) := by
  unfold parseLine
  obtain ⟨s1, n1, _⟩ := s.allocIf l.host
  generalize allocIf l.host h = x1 at s1 n1
  obtain ⟨h1, host⟩ := x1
  simp only at s1 n1 ⊢
  obtain ⟨s2, n2, z2⟩ := s1.allocIf l.sites
  generalize allocIf l.sites h1 = x2 at s2 n2 z2
  obtain ⟨h2, dl⟩ := x2
  simp only at s2 n2 z2 ⊢
  have hp : Plain { host := host, domainList := dl } := ⟨rfl, nofun, nofun, nofun, nofun, n2, nofun, n1⟩
  obtain ⟨p3, e1, e2, e3, e4, lost, s3, hl⟩ := parseOptions_sound (bs := bs) l.options hp (s2.perm (by
    intro b
    rw [hp.owns]
    simp only [List.count_append, bl_null, bl_start, List.count_nil]
    omega))
  generalize parseOptions h2 { host := host, domainList := dl } l.options = x3 at p3 e1 e2 e3 e4 s3
  obtain ⟨h3, f⟩ := x3
  simp only at p3 e1 e2 e3 e4 s3 ⊢
  obtain ⟨s4, n4, _⟩ := s3.allocIf (pr && l.data)
  generalize allocIf (pr && l.data) h3 = x4 at s4 n4
  obtain ⟨h4, rd⟩ := x4
  simp only at s4 n4 ⊢
  obtain ⟨s5, n5, _⟩ := s4.allocIf l.data
  generalize allocIf l.data h4 = x5 at s5 n5
  obtain ⟨h5, dt⟩ := x5
  simp only at s5 n5 ⊢
  have hp' : Plain { f with ruleDefinition := rd, data := dt } :=
    ⟨p3.borrowed, p3.domains, p3.antiDomains, n5, n4, p3.domainList, p3.tag, p3.host⟩
  refine ⟨hp', e1, e2, lost, s5.perm ?_, fun hn => ?_⟩
  · intro b
    rw [hp'.owns, p3.owns]
    simp only [e3, e4, List.count_append, bl_null, bl_start, List.count_nil]
    omega
  · apply hl
    · exact hn.1.imp (fun e => z2.2 e) id
    · exact .inl rfl
    · exact hn.2.1
    · exact hn.2.2

/-- `parseDomains` adds what it allocates to what the filter owns -/
theorem parseDomains_sound {h : Heap} {f : OFilter} {bs : List Nat} (found : Bool × Bool)
    (hd : NotInner f.domains) (ha : NotInner f.antiDomains) (s : Sound h (owns f ++ bs)) :
    Sound (parseDomains h f found).1 (owns (parseDomains h f found).2 ++ bs) ∧
    NotInner (parseDomains h f found).2.domains ∧ NotInner (parseDomains h f found).2.antiDomains ∧
    (parseDomains h f found).2.borrowed = f.borrowed ∧ (parseDomains h f found).2.data = f.data ∧
    (parseDomains h f found).2.ruleDefinition = f.ruleDefinition ∧ (parseDomains h f found).2.domainList = f.domainList ∧
    (parseDomains h f found).2.tag = f.tag ∧ (parseDomains h f found).2.host = f.host := by
  unfold parseDomains
  split
  · exact ⟨s, hd, ha, rfl, rfl, rfl, rfl, rfl, rfl⟩
  · have h1 : ∃ h1 p, (if f.domains = .null then allocIf found.1 h else (h, f.domains)) = (h1, p) ∧ NotInner p ∧
        Sound h1 (bl p ++ (bl f.antiDomains ++ ((if f.borrowed then [] else
          bl f.data ++ bl f.ruleDefinition ++ bl f.domainList ++ bl f.tag ++ bl f.host) ++ bs))) := by
      split
      · rename_i hn
        obtain ⟨s1, n1, _⟩ := s.allocIf found.1
        refine ⟨(Own.allocIf found.1 h).1, (Own.allocIf found.1 h).2, rfl, n1, s1.perm fun b => ?_⟩
        simp only [owns, hn, bl_null, bl_start, List.count_append, List.count_nil]
        omega
      · refine ⟨_, _, rfl, hd, s.perm fun b => ?_⟩
        simp only [owns, List.count_append]
        omega
    obtain ⟨h1, p, e1, n1, s1⟩ := h1
    rw [e1]
    dsimp only
    have h2 : ∃ h2 q, (if f.antiDomains = .null then allocIf found.2 h1 else (h1, f.antiDomains)) = (h2, q) ∧ NotInner q ∧
        Sound h2 (bl p ++ (bl q ++ ((if f.borrowed then [] else
          bl f.data ++ bl f.ruleDefinition ++ bl f.domainList ++ bl f.tag ++ bl f.host) ++ bs))) := by
      split
      · rename_i hn
        obtain ⟨s2, n2, _⟩ := s1.allocIf found.2
        refine ⟨(Own.allocIf found.2 h1).1, (Own.allocIf found.2 h1).2, rfl, n2, s2.perm fun b => ?_⟩
        simp only [hn, bl_null, bl_start, List.count_append, List.count_nil]
        omega
      · exact ⟨_, _, rfl, ha, s1⟩
    obtain ⟨h2, q, e2, n2, s2⟩ := h2
    rw [e2]
    refine ⟨s2.perm fun b => ?_, n1, n2, rfl, rfl, rfl, rfl, rfl, rfl⟩
    simp only [owns, List.count_append]
    omega

theorem parseDomainsIf_sound {h : Heap} {f : OFilter} {bs : List Nat} (found : Option (Bool × Bool))
    (hd : NotInner f.domains) (ha : NotInner f.antiDomains) (s : Sound h (owns f ++ bs)) :
    Sound (parseDomainsIf h f found).1 (owns (parseDomainsIf h f found).2 ++ bs) ∧
    NotInner (parseDomainsIf h f found).2.domains ∧ NotInner (parseDomainsIf h f found).2.antiDomains ∧
    (parseDomainsIf h f found).2.borrowed = f.borrowed ∧ (parseDomainsIf h f found).2.data = f.data ∧
    (parseDomainsIf h f found).2.ruleDefinition = f.ruleDefinition ∧ (parseDomainsIf h f found).2.domainList = f.domainList ∧
    (parseDomainsIf h f found).2.tag = f.tag ∧ (parseDomainsIf h f found).2.host = f.host := by
  cases found with
  | none => exact ⟨s, hd, ha, rfl, rfl, rfl, rfl, rfl, rfl⟩
  | some x => exact parseDomains_sound x hd ha s

theorem parseDomainsIf_plain {h : Heap} {f : OFilter} {bs : List Nat} (found : Option (Bool × Bool)) (hf : Plain f)
    (s : Sound h (owns f ++ bs)) : Sound (parseDomainsIf h f found).1 (owns (parseDomainsIf h f found).2 ++ bs) ∧
    Plain (parseDomainsIf h f found).2 ∧ (parseDomainsIf h f found).2.domainList = f.domainList := by
  obtain ⟨h1, h2, h3, h4, h5, h6, h7, h8, h9⟩ := parseDomainsIf_sound found hf.domains hf.antiDomains s
  exact ⟨h1, ⟨by rw [h4]; exact hf.borrowed, h2, h3, by rw [h5]; exact hf.data, by rw [h6]; exact hf.ruleDefinition,
    by rw [h7]; exact hf.domainList, by rw [h8]; exact hf.tag, by rw [h9]; exact hf.host⟩, h7⟩

theorem copyFilter_sound {h : Heap} {f : OFilter} {bs : List Nat} (hf : f.borrowed = false) (s : Sound h bs) :
    Plain (copyFilter h f).2 ∧ Sound (copyFilter h f).1 (owns (copyFilter h f).2 ++ bs) := by
  unfold copyFilter
  rw [hf]
  simp only [Bool.false_eq_true, if_false]
  obtain ⟨s1, n1, _⟩ := s.allocIf (f.data ≠ .null)
  generalize allocIf (f.data ≠ .null) h = x1 at s1 n1
  obtain ⟨h1, p1⟩ := x1
  simp only at s1 n1 ⊢
  obtain ⟨s2, n2, _⟩ := s1.allocIf (f.domainList ≠ .null)
  generalize allocIf (f.domainList ≠ .null) h1 = x2 at s2 n2
  obtain ⟨h2, p2⟩ := x2
  simp only at s2 n2 ⊢
  obtain ⟨s3, n3, _⟩ := s2.allocIf (f.tagLen > 0)
  generalize allocIf (f.tagLen > 0) h2 = x3 at s3 n3
  obtain ⟨h3, p3⟩ := x3
  simp only at s3 n3 ⊢
  obtain ⟨s4, n4, _⟩ := s3.allocIf (f.host ≠ .null)
  generalize allocIf (f.host ≠ .null) h3 = x4 at s4 n4
  obtain ⟨h4, p4⟩ := x4
  simp only at s4 n4 ⊢
  obtain ⟨s5, n5, _⟩ := s4.allocIf (f.ruleDefinition ≠ .null)
  generalize allocIf (f.ruleDefinition ≠ .null) h4 = x5 at s5 n5
  obtain ⟨h5, p5⟩ := x5
  simp only at s5 n5 ⊢
  have hp : Plain { data := p1, domainList := p2, tag := p3, host := p4, ruleDefinition := p5, tagLen := f.tagLen } :=
    ⟨rfl, nofun, nofun, n1, n5, n2, n3, n4⟩
  refine ⟨hp, s5.perm fun b => ?_⟩
  rw [hp.owns]
  simp only [List.count_append, bl_null, bl_start, List.count_nil]
  omega

end AdBlock.Own
