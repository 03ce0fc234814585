import Verif.Map.Props

/-! # Random transvection sequences (C17) -/

namespace Hnco

open Outcome

/-- Every transvection of the sequence is valid in dimension `n`. -/
def AllValid (n : Nat) (ts : List Transvection) : Prop :=
  ∀ t ∈ ts, t.row < n ∧ t.col < n ∧ t.row ≠ t.col

/-- No destination is also a source. -/
def SourcesApart (ts : List Transvection) : Prop := ∀ a ∈ ts, ∀ b ∈ ts, a.row ≠ b.col

/-- The library's validity check says the same. -/
theorem tsIsValidN_iff (n : Nat) (ts : List Transvection) :
    tsIsValidN ts n = true ↔ AllValid n ts := by
  simp [tsIsValidN, AllValid, tvIsValidN_iff]

/-! ## Helper lemmas -/

theorem tvRandom_post {n : Nat} (hn : 1 < n) :
    Sim.Post (tvRandom n) (fun t => t.row < n ∧ t.col < n ∧ t.row ≠ t.col) := by
  refine (Sim.Post.assert (decide_eq_true hn)).bind fun _ _ => ?_
  refine (Sim.Post.repeatUntil (P := fun t : Transvection => t.row < n ∧ t.col < n) ?_).mono ?_
  · refine (Sim.Post.uniformInt (Nat.zero_le _)).bind fun i hi => ?_
    refine (Sim.Post.uniformInt (Nat.zero_le _)).bind fun j hj => Sim.Post.pure ?_
    simp only; omega
  · rintro t ⟨⟨h1, h2⟩, h3⟩
    exact ⟨h1, h2, by simpa using h3⟩

theorem tsRandomLoop_post {n : Nat} (hn : 1 < n) (k : Nat) :
    Sim.Post (tsRandomLoop n k) (fun ts => ts.length = k ∧ AllValid n ts) := by
  induction k with
  | zero => exact Sim.Post.pure ⟨rfl, fun _ h => by cases h⟩
  | succ k ih =>
    refine (tvRandom_post hn).bind fun t ht => ih.bind fun ts hts => Sim.Post.pure ⟨by simp [hts.1], ?_⟩
    intro u hu
    rcases List.mem_cons.mp hu with rfl | hu
    · exact ht
    · exact hts.2 u hu

theorem shuffledVariables_post (n : Nat) : Sim.Post (shuffledVariables n) (fun vars =>
    vars.length = n ∧ vars.Nodup ∧ ∀ v ∈ vars, v < n) := by
  refine (Sim.Post.shuffle _).mono fun vars hp => ⟨?_, ?_, ?_⟩
  · simpa using hp.length_eq
  · exact hp.nodup_iff.mpr List.nodup_range
  · exact fun v hv => List.mem_range.mp (hp.mem_iff.mp hv)

theorem split_even {k r t : Nat} (h : r * r ≤ k * k - t) (ht : t ≤ k * k) (hr : r ≤ k) :
    t ≤ (k + r) * (k - r) := by
  obtain ⟨d, rfl⟩ := Nat.exists_eq_add_of_le hr
  rw [show r + d - r = d by omega]
  have h1 : r * r + t ≤ (r + d) * (r + d) := by omega
  nlinarith

theorem split_odd {k r t : Nat} (h : (2 * r - 1) * (2 * r - 1) ≤ (2 * k + 1) * (2 * k + 1) - 4 * t)
    (ht : 4 * t ≤ (2 * k + 1) * (2 * k + 1)) (hr : r ≤ k) (h1 : 1 ≤ r) :
    t ≤ (k + r) * (k + 1 - r) := by
  obtain ⟨d, rfl⟩ := Nat.exists_eq_add_of_le hr
  obtain ⟨q, rfl⟩ := Nat.exists_eq_add_of_le h1
  rw [show 1 + q + d + 1 - (1 + q) = d + 1 by omega]
  rw [show 2 * (1 + q) - 1 = 2 * q + 1 by omega] at h
  have h2 : (2 * q + 1) * (2 * q + 1) + 4 * t ≤ (2 * (1 + q + d) + 1) * (2 * (1 + q + d) + 1) := by
    omega
  nlinarith

theorem commutingSplit_post {n t : Nat} (hn : 1 < n) (htm : t ≤ commutingLengthMax n) :
    Sim.Post (commutingSplit n t) (fun split => split ≤ n ∧ t ≤ split * (n - split)) := by
  unfold commutingSplit
  unfold commutingLengthMax at htm
  by_cases he : n % 2 = 0
  · rw [if_pos (by simpa using he)] at htm ⊢
    obtain ⟨k, rfl⟩ : ∃ k, n = 2 * k := ⟨n / 2, by omega⟩
    have hk : 2 * k / 2 = k := by omega
    rw [hk] at htm ⊢
    have hsq : 2 * k * (2 * k) / 4 = k * k := by
      rw [show 2 * k * (2 * k) = 4 * (k * k) by ring]; omega
    refine (Sim.Post.uniformInt (Nat.zero_le _)).bind fun r hr => Sim.Post.bernoulli.bind fun b _ =>
      Sim.Post.pure ?_
    unfold commutingBound at hr
    rw [if_pos (by simpa using he), hk, hsq] at hr
    have hr1 : r ≤ k - 1 := by omega
    have hr2 : r ≤ Nat.sqrt (k * k - t) := by omega
    have hr3 : r * r ≤ k * k - t := Nat.le_sqrt.mp hr2
    have hmain := split_even hr3 htm (by omega)
    cases b
    · simp only [Bool.false_eq_true, if_false]
      refine ⟨by omega, ?_⟩
      rw [show 2 * k - (k - r) = k + r by omega, Nat.mul_comm]; exact hmain
    · simp only [if_true]
      refine ⟨by omega, ?_⟩
      rw [show 2 * k - (k + r) = k - r by omega]; exact hmain
  · rw [if_neg (by simpa using he)] at htm ⊢
    obtain ⟨k, rfl⟩ : ∃ k, n = 2 * k + 1 := ⟨n / 2, by omega⟩
    have hk : (2 * k + 1) / 2 = k := by omega
    rw [hk] at htm ⊢
    have h4 : 4 * t + 1 ≤ (2 * k + 1) * (2 * k + 1) := by nlinarith
    have hs : 1 ≤ Nat.sqrt ((2 * k + 1) * (2 * k + 1) - 4 * t) := Nat.le_sqrt.mpr (by omega)
    have hb : commutingBound (2 * k + 1) t
        = min k ((Nat.sqrt ((2 * k + 1) * (2 * k + 1) - 4 * t) + 1) / 2) := by
      unfold commutingBound
      rw [if_neg (by simpa using he), hk]
    refine (Sim.Post.uniformInt (by rw [hb]; omega)).bind fun r hr => Sim.Post.bernoulli.bind fun b _ =>
      Sim.Post.pure ?_
    rw [hb] at hr
    have hr3 : (2 * r - 1) * (2 * r - 1) ≤ (2 * k + 1) * (2 * k + 1) - 4 * t :=
      Nat.le_sqrt.mp (by omega)
    have hmain := split_odd hr3 (by omega) (by omega) hr.1
    cases b
    · simp only [Bool.false_eq_true, if_false]
      refine ⟨by omega, ?_⟩
      rw [show 2 * k + 1 - (k + 1 - r) = k + r by omega, Nat.mul_comm]; exact hmain
    · simp only [if_true]
      refine ⟨by omega, ?_⟩
      rw [show 2 * k + 1 - (k + r) = k + 1 - r by omega]; exact hmain

theorem commutingPairs_ok {vars : List Nat} {n split : Nat} (hl : vars.length = n) (hs : split ≤ n)
    (ts : List Transvection) :
    (commutingPairs vars n split ts).Returns (fun r =>
      r.length = ts.length + split * (n - split) ∧
      ∀ a ∈ r, a ∈ ts ∨ ∃ (i j : Nat), i < split ∧ split ≤ j ∧ vars[i]? = some a.row ∧
        vars[j]? = some a.col) := by
  unfold commutingPairs
  refine (forRange_returns (fun i (r : List Transvection) =>
    r.length = ts.length + i * (n - split) ∧
      ∀ a ∈ r, a ∈ ts ∨ ∃ (i j : Nat), i < split ∧ split ≤ j ∧ vars[i]? = some a.row ∧
        vars[j]? = some a.col) (Nat.zero_le _) ⟨by simp, fun a ha => Or.inl ha⟩ ?_).mono
      (fun _ h => h)
  intro i r _ hi ⟨h1, h2⟩
  refine (forRange_returns (fun j (r' : List Transvection) =>
    r'.length = r.length + (j - split) ∧
      ∀ a ∈ r', a ∈ ts ∨ ∃ (i j : Nat), i < split ∧ split ≤ j ∧ vars[i]? = some a.row ∧
        vars[j]? = some a.col) hs ⟨by simp, h2⟩ ?_).mono ?_
  · intro j r' hj1 hj2 ⟨h3, h4⟩
    rw [vget_eq (show i < vars.length by omega), ok_bind, vget_eq (show j < vars.length by omega),
      ok_bind]
    refine ⟨_, rfl, by simp [h3]; omega, ?_⟩
    intro a ha
    rcases List.mem_append.mp ha with ha | ha
    · exact h4 a ha
    · rw [List.mem_singleton.mp ha]
      exact Or.inr ⟨i, j, hi, hj1, by simp [show i < vars.length by omega],
        by simp [show j < vars.length by omega]⟩
  · intro r' ⟨h3, h4⟩
    refine ⟨?_, h4⟩
    rw [h3, h1, Nat.succ_mul]; omega

theorem getElem?_ne_of_nodup {l : List Nat} (h : l.Nodup) {i j a b : Nat} (hij : i ≠ j)
    (ha : l[i]? = some a) (hb : l[j]? = some b) : a ≠ b := by
  intro e
  subst e
  obtain ⟨hi, e1⟩ := List.getElem?_eq_some_iff.mp ha
  obtain ⟨hj, e2⟩ := List.getElem?_eq_some_iff.mp hb
  exact hij ((List.Nodup.getElem_inj_iff h).mp (e1.trans e2.symm))

theorem commutingLengthMax_eq (n : Nat) : commutingLengthMax n = n * n / 4 := by
  unfold commutingLengthMax
  by_cases he : n % 2 = 0
  · rw [if_pos (by simpa using he)]
    obtain ⟨k, rfl⟩ : ∃ k, n = 2 * k := ⟨n / 2, by omega⟩
    rw [show 2 * k * (2 * k) = 4 * (k * k) by ring, show 2 * k / 2 = k by omega]; omega
  · rw [if_neg (by simpa using he)]
    obtain ⟨k, rfl⟩ : ∃ k, n = 2 * k + 1 := ⟨n / 2, by omega⟩
    rw [show (2 * k + 1) * (2 * k + 1) = 4 * (k * (k + 1)) + 1 by ring,
      show (2 * k + 1) / 2 = k by omega]
    omega

/-! ## The properties -/

/-- C17: whatever the draws and the previous contents, the unconstrained sampler gives `t` valid
transvections. -/
theorem tsRandom_correct (ts : List Transvection) (n t : Nat) (hn : 1 < n) :
    Sim.Post (tsRandom ts n t) (fun r => r.length = t ∧ AllValid n r) :=
  (Sim.Post.assert (decide_eq_true hn)).bind fun _ _ => tsRandomLoop_post hn t

example : tsRandom [] 3 2 [1, 1, 2, 0, 0, 1] = .ok [⟨2, 0⟩, ⟨0, 1⟩] [] := by decide

/-- C17: whatever the draws, starting from an empty sequence the commuting sampler gives
`min t (n * n / 4)` valid transvections, no source of which is a destination, so that they pairwise
commute. -/
theorem tsRandomCommuting_correct (n t : Nat) (hn : 1 < n) :
    Sim.Post (tsRandomCommuting [] n t) (fun r => r.length = min t (n * n / 4) ∧ AllValid n r ∧
      SourcesApart r ∧ r.Pairwise (fun a b => tvCommute a b = true)) := by
  refine (Sim.Post.assert (decide_eq_true hn)).bind fun _ _ => ?_
  by_cases ht : t ≤ 0
  · rw [if_pos ht]
    refine Sim.Post.pure ⟨by simp; omega, ?_, ?_, List.Pairwise.nil⟩ <;> intro _ h <;> cases h
  rw [if_neg ht]
  simp only
  have hmax : 1 ≤ commutingLengthMax n := by
    rw [commutingLengthMax_eq]
    have : 4 ≤ n * n := by nlinarith
    omega
  have htt : (if t > commutingLengthMax n then commutingLengthMax n else t)
      = min t (n * n / 4) := by
    rw [← commutingLengthMax_eq]; split <;> omega
  rw [htt]
  rw [commutingLengthMax_eq] at hmax
  generalize htm : min t (n * n / 4) = tm
  have htm1 : 1 ≤ tm := by omega
  have htm2 : tm ≤ commutingLengthMax n := by rw [commutingLengthMax_eq]; omega
  refine (shuffledVariables_post n).bind fun vars hvars => ?_
  refine (commutingSplit_post hn htm2).bind fun split hsplit => ?_
  refine (Sim.Post.lift (commutingPairs_ok hvars.1 hsplit.1 [])).bind fun ps hps => ?_
  refine (Sim.Post.shuffle ps).bind fun r hr => ?_
  have hrl : r.length = split * (n - split) := by rw [hr.length_eq, hps.1]; simp
  have hmem : ∀ a ∈ r, ∃ (i j : Nat), i < split ∧ split ≤ j ∧ vars[i]? = some a.row ∧
        vars[j]? = some a.col := by
    intro a ha
    rcases hps.2 a (hr.mem_iff.mp ha) with h | h
    · cases h
    · exact h
  have hok : ∀ r' : List Transvection, r'.length = tm → r' ⊆ r → r'.length = tm ∧ AllValid n r' ∧
      SourcesApart r' ∧ r'.Pairwise (fun a b => tvCommute a b = true) := by
    intro r' hl hsub
    have hap : SourcesApart r' := by
      intro a ha b hb
      obtain ⟨i, _, hi, _, e1, _⟩ := hmem a (hsub ha)
      obtain ⟨_, j, _, hj, _, e2⟩ := hmem b (hsub hb)
      exact getElem?_ne_of_nodup hvars.2.1 (by omega) e1 e2
    refine ⟨hl, ?_, hap, ?_⟩
    · intro a ha
      obtain ⟨i, j, hi, hj, e1, e2⟩ := hmem a (hsub ha)
      exact ⟨hvars.2.2 _ (List.mem_of_getElem? e1), hvars.2.2 _ (List.mem_of_getElem? e2), hap a ha a ha⟩
    · rw [List.pairwise_iff_forall_sublist]
      intro a b hab
      have ha : a ∈ r' := hab.subset (by simp)
      have hb : b ∈ r' := hab.subset (by simp)
      exact tvCommute_iff.mpr ⟨hap a ha b hb, hap b hb a ha⟩
  by_cases hlt : tm < r.length
  · rw [if_pos hlt]
    exact Sim.Post.pure (hok _ (by rw [List.length_take]; omega) (List.take_subset _ _))
  · rw [if_neg hlt]
    exact Sim.Post.pure (hok r (by omega) (fun _ h => h))

theorem unique_finish {n t : Nat} {vars : List Nat} (hvars : vars.length = n ∧ vars.Nodup ∧
    ∀ v ∈ vars, v < n) {r r' : List Transvection} {swap : Bool} (hp : r'.Perm r)
    (h : r.length = t ∧ r.map (fun a => if swap then a.col else a.row) = vars.take t ∧
        ∀ a ∈ r, ∃ (i k : Nat), i < t ∧ t ≤ k ∧
          vars[i]? = some (if swap then a.col else a.row) ∧
          vars[k]? = some (if swap then a.row else a.col)) :
    r'.length = t ∧ AllValid n r' ∧ SourcesApart r' ∧
      (r'.map (fun a => if swap then a.col else a.row)).Nodup := by
  obtain ⟨h1, h2, h3⟩ := h
  have hap : SourcesApart r' := by
    intro a ha b hb
    obtain ⟨i, k, hi, hk, e1, e2⟩ := h3 a (hp.mem_iff.mp ha)
    obtain ⟨i', k', hi', hk', e1', e2'⟩ := h3 b (hp.mem_iff.mp hb)
    cases swap
    · exact getElem?_ne_of_nodup hvars.2.1 (show i ≠ k' by omega) e1 e2'
    · exact getElem?_ne_of_nodup hvars.2.1 (show k ≠ i' by omega) e2 e1'
  refine ⟨by rw [hp.length_eq, h1], ?_, hap, ?_⟩
  · intro a ha
    obtain ⟨i, k, hi, hk, e1, e2⟩ := h3 a (hp.mem_iff.mp ha)
    have m1 := hvars.2.2 _ (List.mem_of_getElem? e1)
    have m2 := hvars.2.2 _ (List.mem_of_getElem? e2)
    cases swap
    · exact ⟨m1, m2, hap a ha a ha⟩
    · exact ⟨m2, m1, hap a ha a ha⟩
  · rw [(hp.map _).nodup_iff, h2]
    exact hvars.2.1.sublist (List.take_sublist _ _)

example : tsRandomCommuting [] 3 2 [0, 0, 0, 0] = .ok [⟨0, 1⟩, ⟨0, 2⟩] [] := by decide +kernel

/-- C17: whatever the draws, starting from an empty sequence the unique source sampler gives
`min t (n - 1)` valid transvections with pairwise distinct destinations, none of which is a source. -/
theorem tsRandomUniqueSource_correct (n t : Nat) (hn : 1 < n) :
    Sim.Post (tsRandomUniqueSource [] n t) (fun r => r.length = min t (n - 1) ∧ AllValid n r ∧
      SourcesApart r ∧ (r.map Transvection.row).Nodup) := by
  refine (Sim.Post.assert (decide_eq_true hn)).bind fun _ _ => ?_
  by_cases ht : t ≤ 0
  · rw [if_pos ht]
    refine Sim.Post.pure ⟨by simp; omega, ?_, ?_, by simp⟩ <;> intro _ h <;> cases h
  rw [if_neg ht]
  simp only
  have htt : (if t > n - 1 then n - 1 else t) = min t (n - 1) := by split <;> omega
  rw [htt]
  generalize htm : min t (n - 1) = tm
  refine (shuffledVariables_post n).bind fun vars hvars => ?_
  have hloop := Sim.Post.forRange (body := fun i (ts : List Transvection) => do
      let r ← Sim.lift (vget vars i)
      let k ← Sim.uniformInt tm (n - 1)
      let c ← Sim.lift (vget vars k)
      return ts ++ [⟨r, c⟩]) (a := 0) (b := tm) (s := []) (fun i (r : List Transvection) => r.length = i ∧
    r.map (fun a => if false then a.col else a.row) = vars.take i ∧
        ∀ a ∈ r, ∃ (i k : Nat), i < tm ∧ tm ≤ k ∧
          vars[i]? = some (if false then a.col else a.row) ∧
          vars[k]? = some (if false then a.row else a.col)) (Nat.zero_le _) (by simp) (by
    intro i r _ hi ⟨h1, h2, h3⟩
    have hi' : i < vars.length := by omega
    refine (Sim.Post.lift ⟨_, vget_eq hi', rfl⟩).bind fun a ha => ?_
    refine (Sim.Post.uniformInt (by omega)).bind fun k hk => ?_
    have hk' : k < vars.length := by omega
    refine (Sim.Post.lift ⟨_, vget_eq hk', rfl⟩).bind fun b hb => ?_
    subst ha hb
    refine Sim.Post.pure ⟨by simp [h1], ?_, ?_⟩
    · rw [List.map_append, h2, List.take_succ_eq_append_getElem hi']; simp
    · intro a ha
      rcases List.mem_append.mp ha with ha | ha
      · exact h3 a ha
      · rw [List.mem_singleton.mp ha]
        exact ⟨i, k, hi, hk.1, by simp [hi'], by simp [hk']⟩)
  refine hloop.bind fun r hr => ?_
  refine (Sim.Post.assert (by simp [hr.1])).bind fun _ _ => ?_
  refine (Sim.Post.shuffle r).mono fun r' hp => ?_
  simpa using unique_finish (swap := false) hvars hp hr

example : tsRandomUniqueSource [] 3 2 [1, 0, 0, 0] = .ok [⟨1, 2⟩, ⟨0, 2⟩] [] := by decide +kernel

/-- C17: whatever the draws, starting from an empty sequence the unique destination sampler gives
`min t (n - 1)` valid transvections with pairwise distinct sources, none of which is a destination. -/
theorem tsRandomUniqueDestination_correct (n t : Nat) (hn : 1 < n) :
    Sim.Post (tsRandomUniqueDestination [] n t) (fun r => r.length = min t (n - 1) ∧ AllValid n r ∧
      SourcesApart r ∧ (r.map Transvection.col).Nodup) := by
  refine (Sim.Post.assert (decide_eq_true hn)).bind fun _ _ => ?_
  by_cases ht : t ≤ 0
  · rw [if_pos ht]
    refine Sim.Post.pure ⟨by simp; omega, ?_, ?_, by simp⟩ <;> intro _ h <;> cases h
  rw [if_neg ht]
  simp only
  have htt : (if t > n - 1 then n - 1 else t) = min t (n - 1) := by split <;> omega
  rw [htt]
  generalize htm : min t (n - 1) = tm
  refine (shuffledVariables_post n).bind fun vars hvars => ?_
  have hloop := Sim.Post.forRange (body := fun i (ts : List Transvection) => do
      let k ← Sim.uniformInt tm (n - 1)
      let r ← Sim.lift (vget vars k)
      let c ← Sim.lift (vget vars i)
      return ts ++ [⟨r, c⟩]) (a := 0) (b := tm) (s := []) (fun i (r : List Transvection) => r.length = i ∧
    r.map (fun a => if true then a.col else a.row) = vars.take i ∧
        ∀ a ∈ r, ∃ (i k : Nat), i < tm ∧ tm ≤ k ∧
          vars[i]? = some (if true then a.col else a.row) ∧
          vars[k]? = some (if true then a.row else a.col)) (Nat.zero_le _) (by simp) (by
    intro i r _ hi ⟨h1, h2, h3⟩
    have hi' : i < vars.length := by omega
    refine (Sim.Post.uniformInt (by omega)).bind fun k hk => ?_
    have hk' : k < vars.length := by omega
    refine (Sim.Post.lift ⟨_, vget_eq hk', rfl⟩).bind fun b hb => ?_
    refine (Sim.Post.lift ⟨_, vget_eq hi', rfl⟩).bind fun a ha => ?_
    subst ha hb
    refine Sim.Post.pure ⟨by simp [h1], ?_, ?_⟩
    · rw [List.map_append, h2, List.take_succ_eq_append_getElem hi']; simp
    · intro a ha
      rcases List.mem_append.mp ha with ha | ha
      · exact h3 a ha
      · rw [List.mem_singleton.mp ha]
        exact ⟨i, k, hi, hk.1, by simp [hi'], by simp [hk']⟩)
  refine hloop.bind fun r hr => ?_
  refine (Sim.Post.assert (by simp [hr.1])).bind fun _ _ => ?_
  refine (Sim.Post.shuffle r).mono fun r' hp => ?_
  simpa using unique_finish (swap := true) hvars hp hr

example : tsRandomUniqueDestination [] 3 2 [1, 0, 0, 0] = .ok [⟨2, 1⟩, ⟨2, 0⟩] [] := by decide +kernel

/-- C17: whatever the draws and the previous contents, for `t > 0` the disjoint sampler gives
`min t (n / 2)` valid, pairwise disjoint transvections. -/
theorem tsRandomDisjoint_correct (ts : List Transvection) (n t : Nat) (hn : 1 < n) (ht : 0 < t) :
    Sim.Post (tsRandomDisjoint ts n t) (fun r => r.length = min t (n / 2) ∧ AllValid n r ∧
      r.Pairwise (fun a b => tvDisjoint a b = true)) := by
  refine (Sim.Post.assert (decide_eq_true hn)).bind fun _ _ => ?_
  rw [if_neg (by omega)]
  refine (shuffledVariables_post n).bind fun vars hvars => ?_
  simp only
  have htt : (if 2 * t > n then n / 2 else t) = min t (n / 2) := by split <;> omega
  rw [htt]
  generalize htm : min t (n / 2) = tm
  have h2 : 2 * tm ≤ n := by omega
  refine (Sim.Post.assert (decide_eq_true h2)).bind fun _ _ => Sim.Post.lift ?_
  unfold disjointPairs
  refine (forRange_returns (fun i (r : List Transvection) => r.length = i ∧
    ∀ (j : Nat) (a : Transvection), r[j]? = some a →
      j < i ∧ vars[2 * j]? = some a.row ∧ vars[2 * j + 1]? = some a.col) (Nat.zero_le _)
      (by simp) ?_).mono ?_
  · intro i r _ hi ⟨h1, h3⟩
    have hi1 : 2 * i < vars.length := by omega
    have hi2 : 2 * i + 1 < vars.length := by omega
    rw [vget_eq hi1, ok_bind, vget_eq hi2, ok_bind]
    have hvN : tvIsValidN ⟨vars[2 * i], vars[2 * i + 1]⟩ n = true := by
      rw [tvIsValidN_iff]
      refine ⟨hvars.2.2 _ (List.getElem_mem _), hvars.2.2 _ (List.getElem_mem _), ?_⟩
      exact getElem?_ne_of_nodup hvars.2.1 (show 2 * i ≠ 2 * i + 1 by omega)
        (List.getElem?_eq_getElem hi1) (List.getElem?_eq_getElem hi2)
    rw [assert_pos hvN, ok_bind]
    refine ⟨_, rfl, by simp [h1], ?_⟩
    intro j a hja
    rw [List.getElem?_append] at hja
    split at hja
    · obtain ⟨q1, q2⟩ := h3 j a hja
      exact ⟨by omega, q2⟩
    · rename_i hlt
      have hj : j = i := by
        by_contra hne
        rw [List.getElem?_eq_none (by simp; omega)] at hja
        cases hja
      subst hj
      rw [h1, Nat.sub_self] at hja
      simp only [List.getElem?_cons_zero, Option.some.injEq] at hja
      subst hja
      exact ⟨by omega, List.getElem?_eq_getElem hi1, List.getElem?_eq_getElem hi2⟩
  · intro r ⟨h1, h3⟩
    refine ⟨h1, ?_, ?_⟩
    · intro a ha
      obtain ⟨j, hj⟩ := List.getElem?_of_mem ha
      obtain ⟨_, e1, e2⟩ := h3 j a hj
      exact ⟨hvars.2.2 _ (List.mem_of_getElem? e1), hvars.2.2 _ (List.mem_of_getElem? e2),
        getElem?_ne_of_nodup hvars.2.1 (show 2 * j ≠ 2 * j + 1 by omega) e1 e2⟩
    · rw [List.pairwise_iff_getElem]
      intro i j hi hj hij
      obtain ⟨_, e1, e2⟩ := h3 i _ (List.getElem?_eq_getElem hi)
      obtain ⟨_, e3, e4⟩ := h3 j _ (List.getElem?_eq_getElem hj)
      rw [tvDisjoint_iff]
      refine ⟨?_, ?_, ?_, ?_⟩
      · exact getElem?_ne_of_nodup hvars.2.1 (show 2 * i ≠ 2 * j by omega) e1 e3
      · exact getElem?_ne_of_nodup hvars.2.1 (show 2 * i ≠ 2 * j + 1 by omega) e1 e4
      · exact getElem?_ne_of_nodup hvars.2.1 (show 2 * i + 1 ≠ 2 * j by omega) e2 e3
      · exact getElem?_ne_of_nodup hvars.2.1 (show 2 * i + 1 ≠ 2 * j + 1 by omega) e2 e4

example : tsRandomDisjoint [⟨0, 1⟩] 3 2 [1] = .ok [⟨1, 0⟩] [] := by decide +kernel

theorem tvRandomNonCommuting_post {n : Nat} (hn : 1 < n) {a : Transvection}
    (ha : a.row < n ∧ a.col < n ∧ a.row ≠ a.col) :
    Sim.Post (tvRandomNonCommuting n a) (fun t => (t.row < n ∧ t.col < n ∧ t.row ≠ t.col) ∧
      tvCommute t a = false) := by
  refine (Sim.Post.assert (decide_eq_true hn)).bind fun _ _ => Sim.Post.bernoulli.bind fun b _ => ?_
  have hpost : Sim.Post (if b then do
      let i ← Sim.repeatUntil (Sim.uniformInt 0 (n - 1)) (fun i => !(i == a.col))
      pure ⟨a.col, i⟩
    else do
      let i ← Sim.repeatUntil (Sim.uniformInt 0 (n - 1)) (fun i => !(i == a.row))
      pure ⟨i, a.row⟩ : Sim Transvection) (fun t => (t.row < n ∧ t.col < n ∧ t.row ≠ t.col) ∧
      tvCommute t a = false) := by
    cases b
    · rw [if_neg (by decide)]
      refine (Sim.Post.repeatUntil (Sim.Post.uniformInt (Nat.zero_le _))).bind fun i hi =>
        Sim.Post.pure ?_
      simp at hi
      refine ⟨⟨by simp only; omega, ha.1, by simp only; exact hi.2⟩, ?_⟩
      simp [tvCommute]
    · rw [if_pos rfl]
      refine (Sim.Post.repeatUntil (Sim.Post.uniformInt (Nat.zero_le _))).bind fun i hi =>
        Sim.Post.pure ?_
      simp at hi
      refine ⟨⟨ha.2.1, by simp only; omega, by simp only; exact Ne.symm hi.2⟩, ?_⟩
      simp [tvCommute]
  refine hpost.bind fun t ht => ?_
  refine (Sim.Post.assert (tvIsValidN_iff.mpr ht.1)).bind fun _ _ => ?_
  refine (Sim.Post.assert (by simp [ht.2])).bind fun _ _ => Sim.Post.pure ht

theorem nonCommutingLoop_post {n : Nat} (hn : 1 < n) : ∀ (k : Nat) (a : Transvection),
    (a.row < n ∧ a.col < n ∧ a.row ≠ a.col) →
    Sim.Post (nonCommutingLoop n k a) (fun r => r.length = k ∧ AllValid n r ∧
      ∀ (i : Nat) (u v : Transvection), (a :: r)[i]? = some u → (a :: r)[i + 1]? = some v →
        tvCommute v u = false)
  | 0, a, _ => Sim.Post.pure ⟨rfl, (fun _ h => by cases h), (fun i u v _ h => by simp at h)⟩
  | k + 1, a, ha => by
    refine (tvRandomNonCommuting_post hn ha).bind fun t ht => ?_
    refine (nonCommutingLoop_post hn k t ht.1).bind fun r hr => Sim.Post.pure ⟨by simp [hr.1], ?_, ?_⟩
    · intro u hu
      rcases List.mem_cons.mp hu with rfl | hu
      · exact ht.1
      · exact hr.2.1 u hu
    · intro i u v hu hv
      cases i with
      | zero =>
        simp only [List.getElem?_cons_zero, Option.some.injEq, Nat.zero_add,
          List.getElem?_cons_succ] at hu hv
        subst hu hv
        exact ht.2
      | succ i => exact hr.2.2 i u v hu hv

/-- C17: whatever the draws and the previous contents, for `t > 0` the non commuting sampler gives `t`
valid transvections, each of which does not commute with the next. -/
theorem tsRandomNonCommuting_correct (ts : List Transvection) (n t : Nat) (hn : 1 < n) (ht : 0 < t) :
    Sim.Post (tsRandomNonCommuting ts n t) (fun r => r.length = t ∧ AllValid n r ∧
      ∀ (i : Nat) (u v : Transvection), r[i]? = some u → r[i + 1]? = some v →
        tvCommute v u = false) := by
  refine (Sim.Post.assert (decide_eq_true hn)).bind fun _ _ => ?_
  rw [if_neg (by omega)]
  refine (tvRandom_post hn).bind fun a ha => ?_
  refine (nonCommutingLoop_post hn (t - 1) a ha).bind fun r hr => Sim.Post.pure ⟨?_, ?_, hr.2.2⟩
  · simp [hr.1]; omega
  · intro u hu
    rcases List.mem_cons.mp hu with rfl | hu
    · exact ha
    · exact hr.2.1 u hu

example : tsRandomNonCommuting [] 3 3 [0, 2, 1, 0, 0, 1] = .ok [⟨0, 2⟩, ⟨2, 0⟩, ⟨1, 2⟩] [] := by decide

/-- C17: with `t = 0` the constrained samplers leave the previous sequence as it is instead of emptying
it. -/
theorem constrained_samplers_zero (ts : List Transvection) (n : Nat) (hn : 1 < n) (ds : List Nat) :
    tsRandomCommuting ts n 0 ds = .ok ts ds ∧ tsRandomUniqueSource ts n 0 ds = .ok ts ds ∧
    tsRandomUniqueDestination ts n 0 ds = .ok ts ds ∧ tsRandomDisjoint ts n 0 ds = .ok ts ds ∧
    tsRandomNonCommuting ts n 0 ds = .ok ts ds := by
  simp only [tsRandomCommuting, tsRandomUniqueSource, tsRandomUniqueDestination, tsRandomDisjoint,
    tsRandomNonCommuting, assert_pos (decide_eq_true hn)]
  exact ⟨rfl, rfl, rfl, rfl, rfl⟩

/-- C17: on a non empty sequence and with `t > 0`, the unique source and unique destination samplers
append to the sequence and then violate their own assertion on its length: no run returns. -/
theorem unique_samplers_nonempty (ts : List Transvection) (n t : Nat) (ht : 0 < t)
    (hts : ts ≠ []) (ds : List Nat) :
    (∀ r rest, tsRandomUniqueSource ts n t ds ≠ .ok r rest) ∧
    (∀ r rest, tsRandomUniqueDestination ts n t ds ≠ .ok r rest) := by
  have hpos : 0 < ts.length := List.length_pos_of_ne_nil hts
  have h1 : Sim.PostOk (tsRandomUniqueSource ts n t) (fun _ => False) := by
    unfold tsRandomUniqueSource
    refine (Sim.PostOk.trivial _).bind fun _ _ => ?_
    rw [if_neg (by omega)]
    refine (Sim.PostOk.trivial _).bind fun vars _ => ?_
    refine (Sim.PostOk.forRange (fun i (r : List Transvection) => r.length = ts.length + i)
      (Nat.zero_le _) rfl ?_).bind fun r hr => ?_
    · intro i r _ _ hr
      refine (Sim.PostOk.trivial _).bind fun _ _ => (Sim.PostOk.trivial _).bind fun _ _ =>
        (Sim.PostOk.trivial _).bind fun _ _ => Sim.PostOk.pure ?_
      simp [hr]; omega
    · refine Sim.PostOk.assert.bind fun _ ha => ?_
      rw [beq_iff_eq] at ha
      omega
  have h2 : Sim.PostOk (tsRandomUniqueDestination ts n t) (fun _ => False) := by
    unfold tsRandomUniqueDestination
    refine (Sim.PostOk.trivial _).bind fun _ _ => ?_
    rw [if_neg (by omega)]
    refine (Sim.PostOk.trivial _).bind fun vars _ => ?_
    refine (Sim.PostOk.forRange (fun i (r : List Transvection) => r.length = ts.length + i)
      (Nat.zero_le _) rfl ?_).bind fun r hr => ?_
    · intro i r _ _ hr
      refine (Sim.PostOk.trivial _).bind fun _ _ => (Sim.PostOk.trivial _).bind fun _ _ =>
        (Sim.PostOk.trivial _).bind fun _ _ => Sim.PostOk.pure ?_
      simp [hr]; omega
    · refine Sim.PostOk.assert.bind fun _ ha => ?_
      rw [beq_iff_eq] at ha
      omega
  exact ⟨fun r rest e => h1 ds r rest e, fun r rest e => h2 ds r rest e⟩

/-- C17: on a non empty sequence the commuting sampler appends: its result may contain the previous
transvections and not commute. -/
theorem tsRandomCommuting_appends : ∃ ds r rest,
    tsRandomCommuting [⟨1, 0⟩] 3 2 ds = .ok r rest ∧ ⟨1, 0⟩ ∈ r ∧
      ¬ r.Pairwise (fun a b => tvCommute a b = true) := by
  refine ⟨[0, 0, 0, 0], _, _, rfl, ?_⟩
  decide +kernel

/-- C18: whatever the draws and the sampling mode, a random map drawn into an object with an empty
sequence satisfies the hypotheses of `tsAffineInvert_correct`: it is a bijection. -/
theorem tsAffineRandom_valid (bv : BV) (n t : Nat) (mode : SamplingMode) (hn : 1 < n) :
    Sim.Post (tsAffineRandom ⟨[], bv⟩ n t mode)
      (fun f => f.bv.length = n ∧ tsIsValidN f.ts n = true) := by
  refine (Sim.Post.assert (decide_eq_true (by omega))).bind fun _ _ => ?_
  refine (Sim.Post.forRange (fun j (r : List Bool) => r.length = j) (Nat.zero_le _) rfl ?_).bind ?_
  · intro j r _ _ hj
    exact Sim.Post.bernoulli.bind fun b _ => Sim.Post.pure (by simp [hj])
  · intro v hv
    have hnil : AllValid n [] := fun _ h => by cases h
    have key : Sim.Post (tsSample [] n t mode) (AllValid n) := by
      have hzero := constrained_samplers_zero [] n hn
      cases mode with
      | unconstrained => exact (tsRandom_correct [] n t hn).mono fun r h => h.2
      | commuting => exact (tsRandomCommuting_correct n t hn).mono fun r h => h.2.1
      | uniqueSource => exact (tsRandomUniqueSource_correct n t hn).mono fun r h => h.2.1
      | uniqueDestination => exact (tsRandomUniqueDestination_correct n t hn).mono fun r h => h.2.1
      | disjoint =>
        rcases Nat.eq_zero_or_pos t with rfl | ht
        · intro ds; simp only [tsSample]; rw [(hzero ds).2.2.2.1]; exact hnil
        · exact (tsRandomDisjoint_correct [] n t hn ht).mono fun r h => h.2.1
      | nonCommuting =>
        rcases Nat.eq_zero_or_pos t with rfl | ht
        · intro ds; simp only [tsSample]; rw [(hzero ds).2.2.2.2]; exact hnil
        · exact (tsRandomNonCommuting_correct [] n t hn ht).mono fun r h => h.2.1
    exact key.bind fun ts hts => Sim.Post.pure ⟨hv, (tsIsValidN_iff n ts).mpr hts⟩

end Hnco
