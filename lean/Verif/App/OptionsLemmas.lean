import Verif.App.OptionsCheck

/-!
# Lemmas on command lines
-/

namespace Hnco

open Outcome

/-! ## Consequences of the consistency of the tables -/

theorem OptClass.check_parts {c : OptClass} (h : c.check = true) :
    (c.help.map (fun d => memberOf d.name)).Nodup ∧ (∀ d ∈ c.help, c.docOk d = true) ∧
    (c.long.map LongOption.val).Nodup ∧ (c.long.map LongOption.name).Nodup ∧
    (∀ o ∈ c.long, ∃ d ∈ c.help, d.name = o.name) ∧
    (∀ l ∈ c.short, l = ':' ∨ ∃ d ∈ c.help, d.letter = some l) ∧ c.caseOf '?'.toNat = none ∧
    2 ≤ c.long.length := by
  simp only [OptClass.check, Bool.and_eq_true, decide_eq_true_eq, List.all_eq_true, List.any_eq_true, Bool.or_eq_true] at h
  obtain ⟨⟨⟨⟨⟨⟨⟨h1, h2⟩, h3⟩, h4⟩, h5⟩, h6⟩, h7⟩, h8⟩ := h
  exact ⟨h1, h2, h3, h4, h5, h6, h7, h8⟩

/-- Two options with the same member are the same. -/
theorem doc_unique {c : OptClass} (h : c.check = true) {d e : OptDoc} (hd : d ∈ c.help) (he : e ∈ c.help)
    (hm : memberOf d.name = memberOf e.name) : d = e :=
  List.inj_on_of_nodup_map (OptClass.check_parts h).1 hd he hm

theorem doc_long {c : OptClass} (h : c.check = true) {d : OptDoc} (hd : d ∈ c.help) :
    ∃ o ∈ c.long, o.name = d.name ∧ o.required = d.takes ∧ c.caseOf o.val = some d.action := by
  have h2 := (OptClass.check_parts h).2.1 d hd
  simp only [OptClass.docOk, Bool.and_eq_true] at h2
  obtain ⟨⟨⟨⟨h3, -⟩, -⟩, -⟩, -⟩ := h2
  split at h3
  · rename_i o ho
    have h4 := List.mem_of_find?_eq_some ho
    have h5 := List.find?_some ho
    simp only [Bool.and_eq_true, decide_eq_true_eq] at h3 h5
    exact ⟨o, h4, h5, h3.1, h3.2⟩
  · cases h3

theorem doc_letter {c : OptClass} (h : c.check = true) {d : OptDoc} (hd : d ∈ c.help) {l : Char} (hl : d.letter = some l) :
    d.takes = true ∧ shortArg c.short l = some true ∧ c.caseOf l.toNat = some d.action ∧ l ≠ '-' := by
  have h2 := (OptClass.check_parts h).2.1 d hd
  simp only [OptClass.docOk, Bool.and_eq_true] at h2
  obtain ⟨⟨⟨⟨-, h3⟩, -⟩, -⟩, -⟩ := h2
  rw [hl] at h3
  simp only [Bool.and_eq_true, decide_eq_true_eq] at h3
  exact ⟨h3.1.1.1, h3.1.1.2, h3.1.2, h3.2⟩

theorem doc_name {c : OptClass} (h : c.check = true) {d : OptDoc} (hd : d ∈ c.help) : '=' ∉ d.name ∧ d.name ≠ [] := by
  have h2 := (OptClass.check_parts h).2.1 d hd
  simp only [OptClass.docOk, Bool.and_eq_true] at h2
  obtain ⟨⟨-, h3⟩, h4⟩ := h2
  constructor
  · simpa using h3
  · simpa using h4

theorem doc_member {c : OptClass} (h : c.check = true) {d : OptDoc} (hd : d ∈ c.help) {k : OptKind} {x : Option OptValue}
    (hk : d.kind = .value k x) :
    c.members.find? (fun m => decide (m.name = memberOf d.name)) = some ⟨memberOf d.name, k, x⟩ ∧
    c.getters.find? (fun g => decide (g.name = memberOf d.name)) = some (d.getter x) := by
  have h2 := (OptClass.check_parts h).2.1 d hd
  simp only [OptClass.docOk, Bool.and_eq_true] at h2
  obtain ⟨⟨⟨-, h3⟩, -⟩, -⟩ := h2
  rw [hk] at h3
  simpa only [Bool.and_eq_true, decide_eq_true_eq] using h3

/-- Two options with the same name are the same. -/
theorem doc_eq {c : OptClass} (h : c.check = true) {d e : OptDoc} (hd : d ∈ c.help) (he : e ∈ c.help) (hn : d.name = e.name) :
    d = e := doc_unique h hd he (by rw [hn])

theorem long_eq {c : OptClass} (h : c.check = true) {o p : LongOption} (ho : o ∈ c.long) (hp : p ∈ c.long)
    (hn : o.name = p.name) : o = p := List.inj_on_of_nodup_map (OptClass.check_parts h).2.2.2.1 ho hp hn

theorem long_val {c : OptClass} (h : c.check = true) {o p : LongOption} (ho : o ∈ c.long) (hp : p ∈ c.long)
    (hn : o.val = p.val) : o = p := List.inj_on_of_nodup_map (OptClass.check_parts h).2.2.1 ho hp hn

/-- The option in a help page of an entry of `long_options`. -/
theorem long_doc {c : OptClass} (h : c.check = true) {o : LongOption} (ho : o ∈ c.long) :
    ∃ d ∈ c.help, d.name = o.name ∧ o.required = d.takes ∧ c.caseOf o.val = some d.action := by
  obtain ⟨d, hd, hn⟩ := (OptClass.check_parts h).2.2.2.2.1 o ho
  obtain ⟨p, hp, hpn, h1, h2⟩ := doc_long h hd
  have : p = o := long_eq h hp ho (hpn.trans hn)
  exact ⟨d, hd, hn, this ▸ h1, this ▸ h2⟩

/-! ## Long options -/

theorem findLong_some {c : OptClass} (h : c.check = true) {p : List Char} {d : OptDoc} (hd : Denotes c.help p d) :
    ∃ o, findLong c.long p = some o ∧ o.required = d.takes ∧ c.caseOf o.val = some d.action := by
  obtain ⟨hm, hp⟩ := hd
  obtain ⟨o, ho, hon, h1, h2⟩ := doc_long h hm
  unfold findLong
  cases hf : c.long.find? (fun o => decide (o.name = p)) with
  | some q =>
    have hq := List.mem_of_find?_eq_some hf
    have hqn := List.find?_some hf
    simp only [decide_eq_true_eq] at hqn
    have : q = o := by
      refine long_eq h hq ho ?_
      rcases hp with hp | ⟨-, -, hu⟩
      · rw [hqn, hp, hon]
      · obtain ⟨e, he, hen, -⟩ := long_doc h hq
        have : e = d := hu e he (by rw [hen, hqn]; exact List.prefix_refl _)
        rw [← hen, this, hon]
    exact ⟨q, rfl, this ▸ h1, this ▸ h2⟩
  | none =>
    have hnone : ∀ q ∈ c.long, q.name ≠ p := by
      intro q hq
      have := List.find?_eq_none.mp hf q hq
      simpa using this
    rcases hp with hp | ⟨-, hpre, hu⟩
    · exact absurd (hon.trans hp.symm) (hnone o ho)
    · have hall : ∀ q ∈ c.long.filter (fun o => p.isPrefixOf o.name), q = o := by
        intro q hq
        rw [List.mem_filter, List.isPrefixOf_iff_prefix] at hq
        obtain ⟨e, he, hen, -⟩ := long_doc h hq.1
        have : e = d := hu e he (by rw [hen]; exact hq.2)
        exact long_eq h hq.1 ho (by rw [← hen, this, hon])
      have hmem : o ∈ c.long.filter (fun o => p.isPrefixOf o.name) := by
        rw [List.mem_filter, List.isPrefixOf_iff_prefix]
        exact ⟨ho, by rw [hon]; exact hpre⟩
      dsimp only
      cases hl : c.long.filter (fun o => p.isPrefixOf o.name) with
      | nil => rw [hl] at hmem; cases hmem
      | cons q qs =>
        rw [hl] at hall
        have hq : q = o := hall q (by simp)
        refine ⟨q, ?_, hq ▸ h1, hq ▸ h2⟩
        dsimp only
        rw [if_pos]
        rw [List.all_eq_true]
        intro r hr
        have : r = o := hall r (by simp [hr])
        simp [this, hq]

theorem findLong_denotes {c : OptClass} (h : c.check = true) {p : List Char} (hp : p ≠ []) {o : LongOption}
    (hf : findLong c.long p = some o) :
    ∃ d, Denotes c.help p d ∧ o.required = d.takes ∧ c.caseOf o.val = some d.action := by
  unfold findLong at hf
  cases hf1 : c.long.find? (fun o => decide (o.name = p)) with
  | some q =>
    rw [hf1] at hf
    cases hf
    have hq := List.mem_of_find?_eq_some hf1
    have hqn := List.find?_some hf1
    simp only [decide_eq_true_eq] at hqn
    obtain ⟨d, hd, hdn, h1, h2⟩ := long_doc h hq
    exact ⟨d, ⟨hd, Or.inl (by rw [hdn, hqn])⟩, h1, h2⟩
  | none =>
    rw [hf1] at hf
    dsimp only at hf
    cases hl : c.long.filter (fun o => p.isPrefixOf o.name) with
    | nil => rw [hl] at hf; cases hf
    | cons q qs =>
      rw [hl] at hf
      dsimp only at hf
      split at hf
      · rename_i hall
        simp only [Option.some.injEq] at hf
        subst hf
        rw [List.all_eq_true] at hall
        have hmem : ∀ r, r ∈ q :: qs ↔ r ∈ c.long ∧ p <+: r.name := by
          intro r
          rw [← hl, List.mem_filter, List.isPrefixOf_iff_prefix]
        have hq := (hmem q).mp (by simp)
        obtain ⟨d, hd, hdn, h1, h2⟩ := long_doc h hq.1
        refine ⟨d, ⟨hd, Or.inr ⟨hp, by rw [hdn]; exact hq.2, ?_⟩⟩, h1, h2⟩
        intro e he hpe
        obtain ⟨r, hr, hrn, -⟩ := doc_long h he
        have hr2 := (hmem r).mpr ⟨hr, by rw [hrn]; exact hpe⟩
        have : r = q := by
          rw [List.mem_cons] at hr2
          rcases hr2 with hr2 | hr2
          · exact hr2
          · have := hall r hr2
            simp only [decide_eq_true_eq] at this
            exact long_val h hr hq.1 this.2
        exact doc_eq h he hd (by rw [← hrn, this, hdn])
      · cases hf

/-- What denotes an option does not contain an equal sign. -/
theorem Denotes.noEqual {c : OptClass} (h : c.check = true) {p : List Char} {d : OptDoc} (hd : Denotes c.help p d) :
    '=' ∉ p ∧ p ≠ [] := by
  obtain ⟨hm, hp⟩ := hd
  have hn := doc_name h hm
  rcases hp with hp | ⟨hp, hpre, -⟩
  · exact ⟨hp ▸ hn.1, hp ▸ hn.2⟩
  · exact ⟨fun hmem => hn.1 (hpre.subset hmem), hp⟩

theorem takeWhile_noEqual {p : List Char} (h : '=' ∉ p) :
    p.takeWhile (fun c => decide (c ≠ '=')) = p ∧ p.dropWhile (fun c => decide (c ≠ '=')) = [] := by
  have h1 : ∀ c ∈ p, decide (c ≠ '=') = true := by
    intro c hc
    rw [decide_eq_true_eq]
    rintro rfl
    exact h hc
  exact ⟨by simpa using List.takeWhile_append_of_pos (l₂ := []) h1, by simpa using List.dropWhile_append_of_pos (l₂ := []) h1⟩

theorem takeWhile_equal {p : List Char} (h : '=' ∉ p) (v : List Char) :
    (p ++ '=' :: v).takeWhile (fun c => decide (c ≠ '=')) = p ∧
    (p ++ '=' :: v).dropWhile (fun c => decide (c ≠ '=')) = '=' :: v := by
  have h1 : ∀ c ∈ p, decide (c ≠ '=') = true := by
    intro c hc
    rw [decide_eq_true_eq]
    rintro rfl
    exact h hc
  constructor
  · rw [List.takeWhile_append_of_pos h1]
    simp
  · rw [List.dropWhile_append_of_pos h1]
    simp

/-! ## What `getopt_long` returns -/

/-- What `getopt_long` returns for an option. -/
def EventOf (c : OptClass) (i : OptDoc × Option (List Char)) (e : OptEvent) : Prop :=
  i.1 ∈ c.help ∧ c.caseOf e.val = some i.1.action ∧ e.arg = i.2 ∧ (i.1.takes = true ↔ ∃ v, i.2 = some v)

theorem getoptEvents_word (short : List Char) (long : List LongOption) {w : List Char} (hw : w.head? ≠ some '-' ∨ w = ['-'])
    (rest : List (List Char)) : getoptEvents short long (w :: rest) = getoptEvents short long rest := by
  rcases hw with hw | rfl
  · cases w with
    | nil => simp [getoptEvents]
    | cons a t =>
      have ha : a ≠ '-' := by simpa using hw
      rw [getoptEvents]
      · rintro body e
        exact ha (by simpa using (List.cons.inj e).1)
      · rintro c cs e
        exact ha (by simpa using (List.cons.inj e).1)
  · simp [getoptEvents]

theorem getoptEvents_long (short : List Char) (long : List LongOption) {body : List Char} (hb : body ≠ [])
    (rest : List (List Char)) : getoptEvents short long (('-' :: '-' :: body) :: rest) =
      match readLong long body with
        | .event e => e :: getoptEvents short long rest
        | .next val =>
          match rest with
          | [] => [badEvent]
          | v :: rest => ⟨val, some v⟩ :: getoptEvents short long rest := by
  rw [getoptEvents, if_neg hb]
  rfl

theorem getoptEvents_short (short : List Char) (long : List LongOption) {a : Char} (ha : a ≠ '-') (cs : List Char)
    (rest : List (List Char)) : getoptEvents short long (('-' :: a :: cs) :: rest) =
      match (readCluster short (a :: cs)).2 with
      | none => (readCluster short (a :: cs)).1 ++ getoptEvents short long rest
      | some val =>
        match rest with
        | [] => (readCluster short (a :: cs)).1 ++ [badEvent]
        | v :: rest => (readCluster short (a :: cs)).1 ++ ⟨val, some v⟩ :: getoptEvents short long rest := by
  rw [getoptEvents]
  · rfl
  intro e
  exact ha e

/-- An option is returned in one event. -/
theorem getoptEvents_spelled {c : OptClass} (h : c.check = true) {d : OptDoc} {arg : Option (List Char)} {words : List (List Char)}
    (hs : Spelled c.help d arg words) (rest : List (List Char)) :
    ∃ e, getoptEvents c.short c.long (words ++ rest) = e :: getoptEvents c.short c.long rest ∧ EventOf c (d, arg) e := by
  cases hs with
  | flag hd ht =>
    obtain ⟨h1, h2⟩ := hd.noEqual h
    obtain ⟨o, ho, hr, hc⟩ := findLong_some h hd
    rw [ht] at hr
    refine ⟨⟨o.val, none⟩, ?_, hd.1, hc, rfl, ?_⟩
    · rw [List.singleton_append, getoptEvents_long _ _ h2]
      simp only [readLong, (takeWhile_noEqual h1).1, (takeWhile_noEqual h1).2, ho, hr]
      rfl
    · simp [ht]
  | @joined p v hd ht =>
    obtain ⟨h1, h2⟩ := hd.noEqual h
    obtain ⟨o, ho, hr, hc⟩ := findLong_some h hd
    rw [ht] at hr
    refine ⟨⟨o.val, some v⟩, ?_, hd.1, hc, rfl, ?_⟩
    · rw [List.singleton_append, getoptEvents_long _ _ (by simp)]
      simp only [readLong, (takeWhile_equal h1 v).1, (takeWhile_equal h1 v).2, ho, hr]
      rfl
    · simp [ht]
  | @separate p v hd ht =>
    obtain ⟨h1, h2⟩ := hd.noEqual h
    obtain ⟨o, ho, hr, hc⟩ := findLong_some h hd
    rw [ht] at hr
    refine ⟨⟨o.val, some v⟩, ?_, hd.1, hc, rfl, ?_⟩
    · rw [List.cons_append, List.singleton_append, getoptEvents_long _ _ h2]
      simp only [readLong, (takeWhile_noEqual h1).1, (takeWhile_noEqual h1).2, ho, hr]
      rfl
    · simp [ht]
  | @letterJoined l v hd hl hv =>
    obtain ⟨ht, ha, hc, hm⟩ := doc_letter h hd hl
    refine ⟨⟨l.toNat, some v⟩, ?_, hd, hc, rfl, ?_⟩
    · rw [List.singleton_append, getoptEvents_short _ _ hm]
      simp [readCluster, ha, hv]
    · simp [ht]
  | @letterSeparate l v hd hl =>
    obtain ⟨ht, ha, hc, hm⟩ := doc_letter h hd hl
    refine ⟨⟨l.toNat, some v⟩, ?_, hd, hc, rfl, ?_⟩
    · rw [List.cons_append, List.singleton_append, getoptEvents_short _ _ hm]
      simp [readCluster, ha]
    · simp [ht]

/-- What is returned for a command line. -/
theorem getoptEvents_line {c : OptClass} (h : c.check = true) {argv : List (List Char)}
    {items : List (OptDoc × Option (List Char))} (hl : CommandLine c.help argv items) :
    List.Forall₂ (EventOf c) items (getoptEvents c.short c.long argv) := by
  induction hl with
  | done => simp [getoptEvents]
  | stop rest => simp [getoptEvents]
  | word hw _ ih => rw [getoptEvents_word _ _ hw]; exact ih
  | option hs _ ih =>
    obtain ⟨e, he, hev⟩ := getoptEvents_spelled h hs _
    rw [he]
    exact List.Forall₂.cons hev ih

end Hnco
