import Verif.Lemmas.Basic
/-! Helper lemmas for `isBlockableProtocol`. -/
namespace AdBlock
open Spec

theorem tolower_eq_lower (c : Byte) : tolower c = lower c := rfl

theorem not_mem_tail {c : Byte} {s : Bytes} (h : 0 ∉ c :: s) : 0 ∉ s := fun e => h (by simp [e])

theorem cstr_cons (c : Byte) (s : Bytes) : cstr (c :: s) = c :: cstr s := rfl

theorem cstr_drop {s : Bytes} {n : Nat} (h : n ≤ s.length) : (cstr s).drop n = cstr (s.drop n) := by
  simp [cstr, List.drop_append_of_le_length h]

theorem readsLower_cstr {ls : List Byte} (hl : 0 ∉ ls) (s : Bytes) :
    readsLower (cstr s) ls = .ok (ls.isPrefixOf (s.map lower)) := by
  induction ls generalizing s with
  | nil => simp [readsLower]
  | cons l ls ih =>
    have h0 : (0 : Byte) ≠ l := fun e => hl (by simp [e])
    cases s with
    | nil =>
      have : ¬ tolower 0 = l := by simpa [tolower] using h0
      simp [readsLower, cstr, this]
    | cons c s =>
      simp only [readsLower, cstr_cons, rd_cons_zero, Res.bind_ok, List.drop_succ_cons,
        List.drop_zero, ih (not_mem_tail hl), tolower_eq_lower, List.map_cons]
      by_cases h : lower c = l
      · simp [h]
      · have : ¬ l = lower c := fun e => h e.symm
        simp [h, this, List.isPrefixOf]

theorem readsExact_cstr {ls : List Byte} (hl : 0 ∉ ls) (s : Bytes) :
    readsExact (cstr s) ls = .ok (ls.isPrefixOf s) := by
  induction ls generalizing s with
  | nil => simp [readsExact]
  | cons l ls ih =>
    have h0 : (0 : Byte) ≠ l := fun e => hl (by simp [e])
    cases s with
    | nil => simp [readsExact, cstr, h0]
    | cons c s =>
      simp only [readsExact, cstr_cons, rd_cons_zero, Res.bind_ok, List.drop_succ_cons,
        List.drop_zero, ih (not_mem_tail hl)]
      by_cases h : c = l
      · simp [h]
      · have : ¬ l = c := fun e => h e.symm
        simp [h, this, List.isPrefixOf]

/-- `s` starts with `://` -/
def P0 (s : Bytes) : Prop := ∃ rest, s = bs%"://" ++ rest

/-- optional `s`, then `://` -/
def P1 (s : Bytes) : Prop := P0 s ∨ ∃ c r, s = c :: r ∧ lower c = ch%'s' ∧ P0 r

/-- a word in any case, then `P1` -/
def P2 (w : Bytes) (s : Bytes) : Prop := ∃ a r, s = a ++ r ∧ a.map lower = w ∧ P1 r

theorem protoSeparator_cstr (s : Bytes) :
    ∃ b, protoSeparator (cstr s) = .ok b ∧ (b = true ↔ P0 s) := by
  refine ⟨_, readsExact_cstr (by decide) s, ?_⟩
  rw [List.isPrefixOf_iff_prefix]
  constructor
  · rintro ⟨r, hr⟩; exact ⟨r, hr.symm⟩
  · rintro ⟨r, hr⟩; exact ⟨r, hr.symm⟩

theorem protoPost_cstr (s : Bytes) (total len : Nat) (hlen : total + s.length = len) :
    ∃ b, protoPost (cstr s) total len = .ok b ∧ (b = true ↔ P1 s) := by
  cases s with
  | nil =>
    refine ⟨false, ?_, ?_⟩
    · have : ¬ tolower 0 = ch%'s' := by decide
      obtain ⟨b, h1, h2⟩ := protoSeparator_cstr []
      have hb : b = false := by
        cases b with
        | false => rfl
        | true => obtain ⟨r, hr⟩ := h2.1 rfl; simp at hr
      rw [hb] at h1
      simp only [protoPost]
      simpa [cstr, this] using h1
    · simp only [Bool.false_eq_true, false_iff]
      rintro (⟨r, hr⟩ | ⟨c, r, hr, _⟩) <;> simp at hr
  | cons c s =>
    by_cases hc : lower c = ch%'s'
    · have hP0 : ¬ P0 (c :: s) := by
        rintro ⟨r, hr⟩
        simp at hr
        rw [hr.1] at hc
        revert hc; decide
      have hP1 : P1 (c :: s) ↔ P0 s := by
        constructor
        · rintro (h | ⟨c', r, hr, _, h⟩)
          · exact absurd h hP0
          · simp at hr; rw [hr.2]; exact h
        · intro h; exact .inr ⟨c, s, rfl, hc, h⟩
      by_cases hb : total + 1 ≥ len
      · refine ⟨false, ?_, ?_⟩
        · simp [protoPost, cstr_cons, tolower_eq_lower, hc, hb]
        · simp only [Bool.false_eq_true, false_iff, hP1]
          rintro ⟨r, hr⟩
          have : s.length = 0 := by simp at hlen; omega
          simp [hr] at this
      · obtain ⟨b, hb1, hb2⟩ := protoSeparator_cstr s
        refine ⟨b, ?_, by rw [hb2, hP1]⟩
        simp [protoPost, cstr_cons, tolower_eq_lower, hc, hb, hb1]
    · obtain ⟨b, hb1, hb2⟩ := protoSeparator_cstr (c :: s)
      refine ⟨b, ?_, ?_⟩
      · simp only [protoPost, cstr_cons, rd_cons_zero, Res.bind_ok, tolower_eq_lower, hc]
        simpa [cstr_cons] using hb1
      · rw [hb2]
        constructor
        · exact .inl
        · rintro (h | ⟨c', r, hr, h, _⟩)
          · exact h
          · simp at hr; rw [← hr.1] at h; exact absurd h hc

theorem prefix_map_lower {w s : Bytes} (h : w.isPrefixOf (s.map lower) = true) :
    (s.take w.length).map lower = w ∧ w.length ≤ s.length := by
  rw [List.isPrefixOf_iff_prefix] at h
  obtain ⟨r, hr⟩ := h
  have hl : w.length ≤ s.length := by
    have := congrArg List.length hr; simp at this; omega
  refine ⟨?_, hl⟩
  rw [List.map_take, ← hr]
  simp

theorem prefix_map_lower' {w a r : Bytes} (h : a.map lower = w) :
    w.isPrefixOf ((a ++ r).map lower) = true := by
  rw [List.isPrefixOf_iff_prefix, List.map_append, h]
  exact List.prefix_append ..

theorem word_cstr {w : Bytes} (hw : 0 ∉ w) (s : Bytes) (total len : Nat)
    (hlen : total + s.length = len) (cont : Ptr → Res Bool) (Q : Bytes → Prop)
    (hQ : ¬ Q [])
    (hcont : ∀ s', total + w.length + s'.length = len →
      ∃ b, cont (cstr s') = .ok b ∧ (b = true ↔ Q s')) :
    ∃ b, (do
        if ← readsLower (cstr s) w then
          if total + w.length ≥ len then pure false else cont ((cstr s).drop w.length)
        else pure false : Res Bool) = .ok b ∧
      (b = true ↔ ∃ a r, s = a ++ r ∧ a.map lower = w ∧ Q r) := by
  rw [readsLower_cstr hw]
  simp only [Res.bind_ok, Res.pure_eq]
  by_cases h : w.isPrefixOf (s.map lower) = true
  · obtain ⟨h1, h2⟩ := prefix_map_lower h
    have key : (∃ a r, s = a ++ r ∧ a.map lower = w ∧ Q r) ↔ Q (s.drop w.length) := by
      constructor
      · rintro ⟨a, r, rfl, ha, hr⟩
        have : a.length = w.length := by rw [← ha]; simp
        rw [← this]; simpa using hr
      · intro hr
        exact ⟨s.take w.length, s.drop w.length, by simp, h1, hr⟩
    rw [key]
    simp only [h, ↓reduceIte]
    by_cases hb : total + w.length ≥ len
    · refine ⟨false, by simp [hb], ?_⟩
      have : s.drop w.length = [] := by
        apply List.drop_eq_nil_of_le; omega
      rw [this]; simp [hQ]
    · obtain ⟨b, hb1, hb2⟩ := hcont (s.drop w.length) (by simp; omega)
      exact ⟨b, by simp [hb, cstr_drop h2, hb1], hb2⟩
  · refine ⟨false, by simp [h], ?_⟩
    simp only [Bool.false_eq_true, false_iff]
    rintro ⟨a, r, rfl, ha, _⟩
    exact h (prefix_map_lower' ha)

theorem P1_nil : ¬ P1 [] := by
  rintro (⟨r, hr⟩ | ⟨c, r, hr, _⟩) <;> simp at hr

theorem protoHttp_cstr (s : Bytes) (total len : Nat) (hlen : total + s.length = len) :
    ∃ b, protoHttp (cstr s) total len = .ok b ∧ (b = true ↔ P2 bs%"http" s) :=
  word_cstr (w := bs%"http") (by decide) s total len hlen (fun p => protoPost p (total + 4) len) P1
    P1_nil (fun s' h => protoPost_cstr s' _ _ h)

theorem protoWs_cstr (s : Bytes) (total len : Nat) (hlen : total + s.length = len) :
    ∃ b, protoWs (cstr s) total len = .ok b ∧ (b = true ↔ P2 bs%"ws" s) :=
  word_cstr (w := bs%"ws") (by decide) s total len hlen (fun p => protoPost p (total + 2) len) P1
    P1_nil (fun s' h => protoPost_cstr s' _ _ h)

/-- http or ws -/
def P3 (s : Bytes) : Prop := P2 bs%"http" s ∨ P2 bs%"ws" s

theorem P2_head {w : Bytes} {x : Byte} {s : Bytes} (h : P2 (x :: w) s) :
    ∃ c r, s = c :: r ∧ lower c = x := by
  obtain ⟨a, r, rfl, ha, _⟩ := h
  cases a with
  | nil => simp at ha
  | cons c a => exact ⟨c, a ++ r, rfl, by simp at ha; exact ha.1⟩

theorem P3_nil : ¬ P3 [] := by
  rintro (h | h) <;> (obtain ⟨c, r, hr, _⟩ := P2_head h; simp at hr)

theorem protoPostBlob_cstr (s : Bytes) (total len : Nat) (hlen : total + s.length = len) :
    ∃ b, protoPostBlob (cstr s) total len = .ok b ∧ (b = true ↔ P3 s) := by
  cases s with
  | nil =>
    refine ⟨false, by
      have h1 : ¬ tolower 0 = ch%'w' := by decide
      have h2 : ¬ tolower 0 = ch%'h' := by decide
      simp [protoPostBlob, cstr, h1, h2], by simp [P3_nil]⟩
  | cons c s =>
    by_cases hw : lower c = ch%'w'
    · obtain ⟨b, h1, h2⟩ := protoWs_cstr (c :: s) total len hlen
      refine ⟨b, ?_, ?_⟩
      · simp only [protoPostBlob, cstr_cons, rd_cons_zero, Res.bind_ok, tolower_eq_lower, hw]
        simpa [cstr_cons] using h1
      · rw [h2]
        constructor
        · exact .inr
        · rintro (h | h)
          · obtain ⟨c', r, hr, h'⟩ := P2_head h
            simp at hr; rw [← hr.1, hw] at h'; exact absurd h' (by decide)
          · exact h
    · by_cases hh : lower c = ch%'h'
      · obtain ⟨b, h1, h2⟩ := protoHttp_cstr (c :: s) total len hlen
        refine ⟨b, ?_, ?_⟩
        · simp only [protoPostBlob, cstr_cons, rd_cons_zero, Res.bind_ok, tolower_eq_lower, hh]
          simpa [cstr_cons] using h1
        · rw [h2]
          constructor
          · exact .inl
          · rintro (h | h)
            · exact h
            · obtain ⟨c', r, hr, h'⟩ := P2_head h
              simp at hr; rw [← hr.1] at h'; exact absurd h' hw
      · refine ⟨false, ?_, ?_⟩
        · simp [protoPostBlob, cstr_cons, tolower_eq_lower, hw, hh]
        · simp only [Bool.false_eq_true, false_iff]
          rintro (h | h)
          · obtain ⟨c', r, hr, h'⟩ := P2_head h
            simp at hr; rw [← hr.1] at h'; exact absurd h' hh
          · obtain ⟨c', r, hr, h'⟩ := P2_head h
            simp at hr; rw [← hr.1] at h'; exact absurd h' hw

theorem protoBlob_cstr (s : Bytes) (total len : Nat) (hlen : total + s.length = len) :
    ∃ b, protoBlob (cstr s) total len = .ok b ∧
      (b = true ↔ ∃ a r, s = a ++ r ∧ a.map lower = bs%"blob:" ∧ P3 r) :=
  word_cstr (w := bs%"blob:") (by decide) s total len hlen
    (fun p => protoPostBlob p (total + 5) len) P3 P3_nil (fun s' h => protoPostBlob_cstr s' _ _ h)

theorem P1_iff (s : Bytes) :
    P1 s ↔ ∃ o rest, s = o ++ bs%"://" ++ rest ∧ (o = [] ∨ o.map lower = bs%"s") := by
  constructor
  · rintro (⟨r, hr⟩ | ⟨c, r, hr, hc, ⟨r', hr'⟩⟩)
    · exact ⟨[], r, by simpa using hr, .inl rfl⟩
    · exact ⟨[c], r', by simp [hr, hr'], .inr (by simp [hc])⟩
  · rintro ⟨o, rest, rfl, rfl | ho⟩
    · exact .inl ⟨rest, by simp⟩
    · cases o with
      | nil => simp at ho
      | cons c o =>
        cases o with
        | cons _ _ => simp at ho
        | nil => exact .inr ⟨c, bs%"://" ++ rest, by simp, by simpa using ho, ⟨rest, rfl⟩⟩

theorem P3_iff (s : Bytes) :
    P3 s ↔ ∃ scheme rest, s = scheme ++ bs%"://" ++ rest ∧
      scheme.map lower ∈ [bs%"http", bs%"https", bs%"ws", bs%"wss"] := by
  constructor
  · rintro (⟨a, r, rfl, ha, h⟩ | ⟨a, r, rfl, ha, h⟩) <;>
    · rw [P1_iff] at h
      obtain ⟨o, rest, rfl, ho⟩ := h
      refine ⟨a ++ o, rest, by simp, ?_⟩
      rw [List.map_append, ha]
      rcases ho with rfl | ho
      · simp
      · rw [ho]; simp
  · rintro ⟨sch, rest, rfl, h⟩
    simp only [List.mem_cons, List.not_mem_nil, or_false] at h
    have split : ∀ (w : Bytes) (o : Bytes), sch.map lower = w ++ o →
        (o = [] ∨ o = bs%"s") → P2 w (sch ++ bs%"://" ++ rest) := by
      intro w o h ho
      refine ⟨sch.take w.length, sch.drop w.length ++ bs%"://" ++ rest, by simp [← List.append_assoc], ?_, ?_⟩
      · rw [List.map_take, h]; simp
      · rw [P1_iff]
        refine ⟨sch.drop w.length, rest, rfl, ?_⟩
        have : (sch.drop w.length).map lower = o := by rw [List.map_drop, h]; simp
        rcases ho with rfl | rfl
        · left; simpa using this
        · right; exact this
    rcases h with h | h | h | h
    · exact .inl (split _ [] (by simpa using h) (.inl rfl))
    · exact .inl (split bs%"http" bs%"s" (by simpa using h) (.inr rfl))
    · exact .inr (split _ [] (by simpa using h) (.inl rfl))
    · exact .inr (split bs%"ws" bs%"s" (by simpa using h) (.inr rfl))

theorem isBlockableProtocol_cstr (s : Bytes) :
    ∃ b, isBlockableProtocol (cstr s) s.length = .ok b ∧
      (b = true ↔ WebUrl s ∧ 5 < s.length) := by
  have hW : WebUrl s ↔ P3 s ∨ ∃ a r, s = a ++ r ∧ a.map lower = bs%"blob:" ∧ P3 r := by
    unfold WebUrl
    constructor
    · rintro ⟨blob, sch, rest, rfl, hb, hs⟩
      have h3 : P3 (sch ++ bs%"://" ++ rest) := (P3_iff _).2 ⟨sch, rest, rfl, hs⟩
      rcases hb with rfl | hb
      · left; simpa using h3
      · right; exact ⟨blob, _, by rw [List.append_assoc, List.append_assoc], hb, by simpa using h3⟩
    · rintro (h | ⟨a, r, rfl, ha, h⟩)
      · obtain ⟨sch, rest, rfl, hs⟩ := (P3_iff _).1 h
        exact ⟨[], sch, rest, by simp, .inl rfl, hs⟩
      · obtain ⟨sch, rest, rfl, hs⟩ := (P3_iff _).1 h
        exact ⟨a, sch, rest, by simp, .inr ha, hs⟩
  by_cases hlen : s.length ≤ 5
  · refine ⟨false, by simp [isBlockableProtocol, hlen], ?_⟩
    simp only [Bool.false_eq_true, false_iff]; omega
  · have h5 : 5 < s.length := by omega
    cases s with
    | nil => simp at h5
    | cons c s =>
      by_cases hb : lower c = ch%'b'
      · obtain ⟨b, h1, h2⟩ := protoBlob_cstr (c :: s) 0 (c :: s).length (by omega)
        refine ⟨b, ?_, ?_⟩
        · simp only [isBlockableProtocol, hlen, cstr_cons, rd_cons_zero, Res.bind_ok,
            tolower_eq_lower, hb]
          simpa [cstr_cons] using h1
        · rw [h2, hW]
          simp only [h5, and_true]
          constructor
          · exact .inr
          · rintro (h | h)
            · rcases h with h | h <;>
              · obtain ⟨c', r, hr, h'⟩ := P2_head h
                simp at hr; rw [← hr.1, hb] at h'; exact absurd h' (by decide)
            · exact h
      · obtain ⟨b, h1, h2⟩ := protoPostBlob_cstr (c :: s) 0 (c :: s).length (by omega)
        refine ⟨b, ?_, ?_⟩
        · simp only [isBlockableProtocol, hlen, cstr_cons, rd_cons_zero, Res.bind_ok,
            tolower_eq_lower, hb]
          simpa [cstr_cons] using h1
        · rw [h2, hW]
          simp only [h5, and_true]
          constructor
          · exact .inl
          · rintro (h | ⟨a, r, hr, ha, _⟩)
            · exact h
            · cases a with
              | nil => simp at ha
              | cons x a =>
                simp at hr ha
                rw [← hr.1] at ha; exact absurd ha.1 hb

theorem readsLower_isOk {ls : List Byte} (hl : 0 ∉ ls) (s : Bytes) :
    (readsLower (cstr s) ls).isOk = true := by rw [readsLower_cstr hl]; rfl

theorem protoPost_isOk (s : Bytes) (total n : Nat) : (protoPost (cstr s) total n).isOk = true := by
  obtain ⟨b, h, _⟩ := protoSeparator_cstr s
  cases s with
  | nil =>
    have : ¬ tolower 0 = ch%'s' := by decide
    simp only [protoPost]
    simp only [cstr, List.nil_append] at h ⊢
    simp [this, h, Res.isOk]
  | cons c s =>
    obtain ⟨b', h', _⟩ := protoSeparator_cstr s
    simp only [protoPost, cstr_cons, rd_cons_zero, Res.bind_ok, List.drop_succ_cons,
      List.drop_zero, h']
    split
    · split <;> rfl
    · rw [← cstr_cons, h]; rfl

theorem word_isOk {w : Bytes} (hw : 0 ∉ w) (s : Bytes) (P : Prop) [Decidable P]
    (cont : Ptr → Res Bool) (hcont : ∀ s', (cont (cstr s')).isOk = true) :
    (do
        if ← readsLower (cstr s) w then
          if P then pure false else cont ((cstr s).drop w.length)
        else pure false : Res Bool).isOk = true := by
  rw [readsLower_cstr hw]
  simp only [Res.bind_ok, Res.pure_eq]
  by_cases h : w.isPrefixOf (s.map lower) = true
  · obtain ⟨_, h2⟩ := prefix_map_lower h
    rw [cstr_drop h2]
    simp only [h, ↓reduceIte]
    split
    · rfl
    · exact hcont _
  · simp [h, Res.isOk]

theorem protoPostBlob_isOk (s : Bytes) (total n : Nat) :
    (protoPostBlob (cstr s) total n).isOk = true := by
  have hw : (protoWs (cstr s) total n).isOk = true :=
    word_isOk (w := bs%"ws") (by decide) s (total + 2 ≥ n) (fun p => protoPost p (total + 2) n)
      (fun s' => protoPost_isOk s' _ _)
  have hh : (protoHttp (cstr s) total n).isOk = true :=
    word_isOk (w := bs%"http") (by decide) s (total + 4 ≥ n) (fun p => protoPost p (total + 4) n)
      (fun s' => protoPost_isOk s' _ _)
  have hr : ∃ c, rd (cstr s) 0 = .ok c := by
    cases s <;> exact ⟨_, rfl⟩
  obtain ⟨c, hc⟩ := hr
  simp only [protoPostBlob, hc, Res.bind_ok]
  split
  · exact hw
  · split
    · exact hh
    · rfl

end AdBlock
