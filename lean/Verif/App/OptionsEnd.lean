import Verif.App.OptionsRun

/-!
# Lemmas on command lines which are refused
-/

namespace Hnco

open Outcome

/-- A letter of `short_options` is that of an option with a value. -/
theorem shortArg_doc {c : OptClass} (h : c.check = true) {l : Char} {b : Bool} (hs : shortArg c.short l = some b) :
    b = true ∧ ∃ d ∈ c.help, d.letter = some l := by
  have hl : l ≠ ':' ∧ l ∈ c.short := by
    unfold shortArg at hs
    split_ifs at hs with h1
    rw [not_or] at h1
    refine ⟨h1.1, ?_⟩
    split at hs
    · cases hs
    · rename_i a t he
      have hhead := dropWhile_head_false (fun d => decide (d ≠ l)) c.short a (by rw [he]; rfl)
      have : a = l := by simpa using hhead
      rw [← this]
      exact (List.dropWhile_suffix _).subset (by rw [he]; simp)
  rcases (OptClass.check_parts h).2.2.2.2.2.1 l hl.2 with h1 | ⟨d, hd, hdl⟩
  · exact absurd h1 hl.1
  · have := (doc_letter h hd hdl).2.1
    rw [this] at hs
    exact ⟨by simpa using hs.symm, d, hd, hdl⟩

/-- An empty name is ambiguous. -/
theorem findLong_empty {c : OptClass} (h : c.check = true) : findLong c.long [] = none := by
  unfold findLong
  have hnone : c.long.find? (fun o => decide (o.name = [])) = none := by
    rw [List.find?_eq_none]
    intro q hq
    obtain ⟨d, hd, hdn, -⟩ := long_doc h hq
    have := (doc_name h hd).2
    rw [hdn] at this
    simpa using this
  rw [hnone]
  dsimp only
  have hfilter : c.long.filter (fun o => ([] : List Char).isPrefixOf o.name) = c.long := by simp
  rw [hfilter]
  have hlen := (OptClass.check_parts h).2.2.2.2.2.2.2
  have hval := (OptClass.check_parts h).2.2.1
  match hl : c.long with
  | [] => rfl
  | [o] => rw [hl] at hlen; simp at hlen
  | o :: p :: os =>
    dsimp only
    rw [if_neg]
    rw [hl] at hval
    simp only [List.map_cons, List.nodup_cons, List.mem_cons, not_or] at hval
    simp only [List.all_cons, Bool.and_eq_true, decide_eq_true_eq, not_and]
    intro h1
    exact absurd h1.2.symm hval.1.1

theorem bad_case {c : OptClass} (h : c.check = true) : c.caseOf badEvent.val = none := (OptClass.check_parts h).2.2.2.2.2.2.1

/-- A word which starts with a dash, and the words after it: either it is an option, and what is returned for it is that option,
or `'?'` is returned. -/
theorem dash_word {c : OptClass} (h : c.check = true) {w : List Char} (h1 : w.head? = some '-') (h2 : w ≠ ['-'])
    (h3 : w ≠ ['-', '-']) (rest : List (List Char)) :
    (∃ d arg words after e, Spelled c.help d arg words ∧ w :: rest = words ++ after ∧ words ≠ [] ∧ EventOf c (d, arg) e ∧
      getoptEvents c.short c.long (w :: rest) = e :: getoptEvents c.short c.long after) ∨
    (∃ es, getoptEvents c.short c.long (w :: rest) = badEvent :: es) := by
  have spelled : ∀ d arg words after, Spelled c.help d arg words → w :: rest = words ++ after → words ≠ [] →
      (∃ d arg words after e, Spelled c.help d arg words ∧ w :: rest = words ++ after ∧ words ≠ [] ∧ EventOf c (d, arg) e ∧
      getoptEvents c.short c.long (w :: rest) = e :: getoptEvents c.short c.long after) := by
    intro d arg words after hs he hn
    obtain ⟨e, he1, he2⟩ := getoptEvents_spelled h hs after
    exact ⟨d, arg, words, after, e, hs, he, hn, he2, by rw [he, he1]⟩
  obtain ⟨t, rfl⟩ : ∃ t, w = '-' :: t := by
    cases w with
    | nil => cases h1
    | cons a t => exact ⟨t, by rw [show a = '-' by simpa using h1]⟩
  cases t with
  | nil => exact absurd rfl h2
  | cons a t =>
    by_cases ha : a = '-'
    · subst ha
      have ht : t ≠ [] := fun e => h3 (by rw [e])
      have hsplit : t = t.takeWhile (fun c => decide (c ≠ '=')) ++ t.dropWhile (fun c => decide (c ≠ '=')) :=
        List.takeWhile_append_dropWhile.symm
      cases hf : findLong c.long (t.takeWhile (fun c => decide (c ≠ '='))) with
      | none => exact Or.inr ⟨getoptEvents c.short c.long rest, by rw [getoptEvents_long _ _ ht]; simp only [readLong, hf]⟩
      | some o =>
        by_cases hp : t.takeWhile (fun c => decide (c ≠ '=')) = []
        · rw [hp, findLong_empty h] at hf
          cases hf
        · obtain ⟨d, hd, hr, -⟩ := findLong_denotes h hp hf
          cases hv : t.dropWhile (fun c => decide (c ≠ '=')) with
          | nil =>
            rw [hv, List.append_nil] at hsplit
            rw [← hsplit] at hd
            cases hreq : o.required with
            | false => exact Or.inl (spelled d none [('-' :: '-' :: t)] rest (Spelled.flag hd (by rw [← hr, hreq])) rfl (by simp))
            | true =>
              cases rest with
              | nil => exact Or.inr ⟨[], by rw [getoptEvents_long _ _ ht]; simp only [readLong, hf, hv, hreq]; rfl⟩
              | cons v rest =>
                exact Or.inl (spelled d (some v) [('-' :: '-' :: t), v] rest (Spelled.separate hd (by rw [← hr, hreq])) rfl (by simp))
          | cons q v =>
            have hq : q = '=' := by
              have := dropWhile_head_false (fun c => decide (c ≠ '=')) t q (by rw [hv]; rfl)
              simpa using this
            cases hreq : o.required with
            | false =>
              exact Or.inr ⟨getoptEvents c.short c.long rest,
                by rw [getoptEvents_long _ _ ht]; simp only [readLong, hf, hv, hreq]; rfl⟩
            | true =>
              rw [hv, hq] at hsplit
              refine Or.inl (spelled d (some v) [('-' :: '-' :: t)] rest ?_ rfl (by simp))
              rw [hsplit]
              exact Spelled.joined hd (by rw [← hr, hreq])
    · cases hs : shortArg c.short a with
      | none =>
        right
        rw [getoptEvents_short _ _ ha, readCluster, hs]
        dsimp only
        split
        · exact ⟨_, rfl⟩
        · split
          · exact ⟨_, rfl⟩
          · exact ⟨_, rfl⟩
      | some b =>
        obtain ⟨rfl, d, hd, hdl⟩ := shortArg_doc h hs
        by_cases ht : t = []
        · subst ht
          cases rest with
          | nil =>
            refine Or.inr ⟨[], ?_⟩
            rw [getoptEvents_short _ _ ha]
            simp [readCluster, hs]
          | cons v rest => exact Or.inl (spelled d (some v) [['-', a], v] rest (Spelled.letterSeparate hd hdl) rfl (by simp))
        · exact Or.inl (spelled d (some t) [('-' :: a :: t)] rest (Spelled.letterJoined hd hdl ht) rfl (by simp))

/-- What is returned for the words of a command line: as long as it is not `'?'`, they are options. -/
theorem getoptEvents_split {c : OptClass} (h : c.check = true) (n : Nat) :
    ∀ argv : List (List Char), argv.length ≤ n → ∀ es fs, getoptEvents c.short c.long argv = es ++ fs →
      (∀ e ∈ es, c.caseOf e.val ≠ none) →
      ∃ pre post items, argv = pre ++ post ∧ CommandLine c.help pre items ∧ List.Forall₂ (EventOf c) items es ∧
        getoptEvents c.short c.long post = fs ∧ (fs = [] → post = []) ∧
        (fs ≠ [] → ∃ w rest, post = w :: rest ∧ w.head? = some '-' ∧ w ≠ ['-'] ∧ w ≠ ['-', '-']) := by
  induction n with
  | zero =>
    intro argv hn es fs he _
    have : argv = [] := List.length_eq_zero_iff.mp (by omega)
    subst this
    rw [getoptEvents] at he
    obtain ⟨rfl, rfl⟩ := List.append_eq_nil_iff.mp he.symm
    exact ⟨[], [], [], rfl, .done, .nil, rfl, fun _ => rfl, fun hne => absurd rfl hne⟩
  | succ n ih =>
    intro argv hn es fs he hg
    cases argv with
    | nil => exact ih [] (by simp) es fs he hg
    | cons w rest =>
      simp only [List.length_cons, Nat.add_le_add_iff_right] at hn
      by_cases hw : w.head? ≠ some '-' ∨ w = ['-']
      · rw [getoptEvents_word _ _ hw] at he
        obtain ⟨pre, post, items, h1, h2, h3, h4⟩ := ih rest hn es fs he hg
        exact ⟨w :: pre, post, items, by rw [h1]; rfl, .word hw h2, h3, h4⟩
      · rw [not_or, not_not] at hw
        by_cases hs : w = ['-', '-']
        · subst hs
          have : getoptEvents c.short c.long (['-', '-'] :: rest) = [] := by simp [getoptEvents]
          rw [this] at he
          obtain ⟨rfl, rfl⟩ := List.append_eq_nil_iff.mp he.symm
          exact ⟨['-', '-'] :: rest, [], [], by simp, .stop rest, .nil, rfl, fun _ => rfl, fun hne => absurd rfl hne⟩
        · cases es with
          | nil =>
            refine ⟨[], w :: rest, [], rfl, .done, .nil, he, ?_, fun _ => ⟨w, rest, rfl, hw.1, hw.2, hs⟩⟩
            rintro rfl
            rcases dash_word h hw.1 hw.2 hs rest with ⟨d, arg, words, after, e, -, -, -, -, he2⟩ | ⟨es, he2⟩ <;>
              (rw [he] at he2; cases he2)
          | cons e es =>
            rcases dash_word h hw.1 hw.2 hs rest with ⟨d, arg, words, after, e', hsp, heq, hne, hev, he2⟩ | ⟨es', he2⟩
            · rw [he2, List.cons_append] at he
              obtain ⟨rfl, he'⟩ := List.cons.inj he
              have hlen : after.length ≤ n := by
                have := congrArg List.length heq
                have h1 := List.length_pos_iff.mpr hne
                simp only [List.length_cons, List.length_append] at this
                omega
              obtain ⟨pre, post, items, h1, h2, h3, h4⟩ := ih after hlen es fs he' (fun e he => hg e (by simp [he]))
              exact ⟨words ++ pre, post, (d, arg) :: items, by rw [heq, h1, List.append_assoc], .option hsp h2, .cons hev h3, h4⟩
            · rw [he2, List.cons_append] at he
              obtain ⟨rfl, -⟩ := List.cons.inj he
              exact absurd (bad_case h) (hg _ (by simp))

/-- An iteration which does not end the program read a fine option. -/
theorem step_fine {c : OptClass} {lib : OptLib} {ignore : Bool} {s t : OptState} {i : OptDoc × Option (List Char)} {e : OptEvent}
    (he : EventOf c i e) (hs : c.step lib ignore s e = .ok t) : FineItem lib i := by
  obtain ⟨d, arg⟩ := i
  obtain ⟨-, hc, ha, ht⟩ := he
  simp only at hc ha ht
  simp only [OptClass.step, hc, OptDoc.action] at hs
  cases hk : d.kind with
  | flag =>
    cases arg with
    | none => exact .flag hk
    | some v =>
      have := ht.mpr ⟨v, rfl⟩
      simp [OptDoc.takes, hk] at this
  | shows => simp [hk, OptAction.run] at hs
  | value k x =>
    obtain ⟨v, rfl⟩ := ht.mp (by simp [OptDoc.takes, hk])
    simp only [hk, OptAction.run, ha] at hs
    cases hx : optConvert lib k v with
    | error y => rw [hx] at hs; cases hs
    | ok y => exact .value hk ((convert_iff _ _ _ _).mp hx)

theorem process_fine {c : OptClass} {lib : OptLib} {ignore : Bool} {items : List (OptDoc × Option (List Char))}
    {es : List OptEvent} (he : List.Forall₂ (EventOf c) items es) {s t : OptState} (hp : c.process lib ignore es s = .ok t) :
    ∀ i ∈ items, FineItem lib i := by
  induction he generalizing s with
  | nil => simp
  | cons h _ ih =>
    rw [OptClass.process] at hp
    split at hp
    · cases hp
    · rename_i s' hs
      intro i hi
      rcases List.mem_cons.mp hi with rfl | hi
      · exact step_fine h hs
      · exact ih hp i hi

/-- Where the loop ends the program. -/
theorem process_error {c : OptClass} {lib : OptLib} {ignore : Bool} {es : List OptEvent} {s : OptState} {x : OptExit}
    (h : c.process lib ignore es s = .error x) :
    ∃ es1 e es2 t, es = es1 ++ e :: es2 ∧ c.process lib ignore es1 s = .ok t ∧ c.step lib ignore t e = .error x := by
  induction es generalizing s with
  | nil => cases h
  | cons e es ih =>
    rw [OptClass.process] at h
    split at h
    · rename_i y hs
      cases h
      exact ⟨[], e, es, s, rfl, rfl, hs⟩
    · rename_i s' hs
      obtain ⟨es1, e', es2, t, rfl, h1, h2⟩ := ih h
      refine ⟨e :: es1, e', es2, t, rfl, ?_, h2⟩
      rw [OptClass.process, hs]
      exact h1

/-- Without `ignore_bad_options`, the loop goes on only after an option. -/
theorem process_good {c : OptClass} {lib : OptLib} {es : List OptEvent} {s t : OptState} (h : c.process lib false es s = .ok t) :
    ∀ e ∈ es, c.caseOf e.val ≠ none := by
  induction es generalizing s with
  | nil => simp
  | cons e es ih =>
    rw [OptClass.process] at h
    split at h
    · cases h
    · rename_i s' hs
      intro e' he
      rcases List.mem_cons.mp he with rfl | he
      · intro hc
        rw [OptClass.step, hc] at hs
        cases hs
      · exact ih h e' he

/-- What ends the program is a problem. -/
theorem step_problem {c : OptClass} (h : c.check = true) {lib : OptLib} {s : OptState} {x : OptExit} {e : OptEvent} {w : List Char}
    {rest : List (List Char)} {es : List OptEvent} (h1 : w.head? = some '-') (h2 : w ≠ ['-']) (h3 : w ≠ ['-', '-'])
    (he : getoptEvents c.short c.long (w :: rest) = e :: es) (hs : c.step lib false s e = .error x) :
    Problem c.help (w :: rest) x := by
  rcases dash_word h h1 h2 h3 rest with ⟨d, arg, words, after, e', hsp, heq, hne, hev, he2⟩ | ⟨es', he2⟩
  · rw [he2] at he
    obtain ⟨rfl, -⟩ := List.cons.inj he
    obtain ⟨hd, hc, ha, ht⟩ := hev
    rw [heq]
    simp only at hc ha ht
    simp only [OptClass.step, hc, OptDoc.action] at hs
    cases hk : d.kind with
    | flag => simp [hk, OptAction.run] at hs
    | shows =>
      simp only [hk, OptAction.run, Except.error.injEq] at hs
      subst hs
      have : arg = none := by
        cases arg with
        | none => rfl
        | some v =>
          have := ht.mpr ⟨v, rfl⟩
          simp [OptDoc.takes, hk] at this
      subst this
      exact .shows hsp hk
    | value k y =>
      obtain ⟨v, rfl⟩ := ht.mp (by simp [OptDoc.takes, hk])
      simp only [hk, OptAction.run, ha] at hs
      cases hx : optConvert lib k v with
      | ok z => rw [hx] at hs; cases hs
      | error z =>
        rw [hx] at hs
        cases hs
        rcases convert_error hx with ⟨rfl, hv1, hv2, rfl⟩ | ⟨rfl, ⟨n, hn, hb⟩, rfl⟩
        · exact .notBoolean hsp hk hv1 hv2
        · exact .tooLarge hsp hk hn hb
  · rw [he2] at he
    obtain ⟨rfl, -⟩ := List.cons.inj he
    rw [OptClass.step, bad_case h] at hs
    cases hs
    refine .unreadable h1 h2 h3 ?_
    intro d arg words after hsp heq
    obtain ⟨e', he3, hev⟩ := getoptEvents_spelled h hsp after
    rw [← heq, he2] at he3
    obtain ⟨rfl, -⟩ := List.cons.inj he3
    have := hev.2.1
    rw [bad_case h] at this
    cases this

end Hnco
