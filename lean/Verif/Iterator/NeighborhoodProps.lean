import Mathlib.Data.Nat.Choose.Sum
import Mathlib.Data.List.Nodup
import Verif.Iterator.SphereLemmas

/-!
# Properties C08 and C09: neighbourhood iterators
-/

namespace Hnco

open Outcome

/-! ### C08: single bit flip iterator -/

namespace SingleBitFlipIterator

theorem enumerates_from (x : BV) : ∀ (m i : Nat), i + 1 + m = x.length →
    ∃ l : List BV, (∀ y, bvFlip x i = ok y →
      Enumerates hasNext next { current := y, index := i, initialState := false } l) ∧
      l.length = m ∧ ∀ k, k < m → ∃ y, l[k]? = some y ∧ bvFlip x (i + 1 + k) = ok y := by
  intro m
  induction m with
  | zero =>
    intro i hi
    refine ⟨[], ?_, rfl, by intro k hk; omega⟩
    intro y hy
    rw [bvFlip_ok (by omega)] at hy
    cases hy
    exact .done (by simp [hasNext, ← hi])
  | succ m ih =>
    intro i hi
    obtain ⟨l, hl, hlen, hk⟩ := ih (i + 1) (by omega)
    have h1 : i < x.length := by omega
    have h2 : i + 1 < x.length := by omega
    have hy1 := bvFlip_ok h2
    refine ⟨x.set (i + 1) (!x[i + 1]) :: l, ?_, by simp [hlen], ?_⟩
    · intro y hy
      rw [bvFlip_ok h1] at hy
      cases hy
      refine .step (by simp [hasNext, h2]) ?_ (hl _ hy1)
      have hback : bvFlip (x.set i (!x[i])) i = ok x := by
        rw [bvFlip_ok (by simpa using h1)]
        congr 1
        apply List.ext_getElem (by simp)
        intro j h3 h4
        simp only [List.getElem_set, List.set_set]
        by_cases hij : i = j
        · subst hij; simp
        · simp [hij]
      simp only [next, hasNext]
      rw [hback, show decide (i + 1 < (x.set i (!x[i])).length) = true by simp [h2]]
      simp [h1, h2, hy1]
    · intro k hk'
      cases k with
      | zero => exact ⟨_, rfl, hy1⟩
      | succ k =>
        obtain ⟨y, e1, e2⟩ := hk k (by omega)
        exact ⟨y, by simpa using e1, by rw [← e2]; congr 1; omega⟩

end SingleBitFlipIterator

/-- C08: from any origin (set on an iterator in any state, which is then initialised) iterating until
exhaustion yields, in index order, the vectors obtained by flipping one bit of the origin: exactly
the vectors at distance one, each once. -/
theorem singleBitFlipIterator_enumerates (it : SingleBitFlipIterator) (x : BV)
    (hx : x.length = it.current.length) :
    ∃ it' l, it.setOrigin x = ok it' ∧
      Enumerates SingleBitFlipIterator.hasNext SingleBitFlipIterator.next it'.init l ∧
      l.length = x.length ∧
      (∀ i, i < x.length → ∃ y, l[i]? = some y ∧ bvFlip x i = ok y) ∧
      l.Nodup ∧ ∀ y : BV, y ∈ l ↔ bvHammingDistance x y = ok 1 := by
  refine ⟨{ it with current := x }, ?_⟩
  have hset : it.setOrigin x = ok { it with current := x } := by
    simp [SingleBitFlipIterator.setOrigin, hx]
  suffices h : ∃ l, Enumerates SingleBitFlipIterator.hasNext SingleBitFlipIterator.next
      (SingleBitFlipIterator.init { it with current := x }) l ∧ l.length = x.length ∧
      (∀ i, i < x.length → ∃ y, l[i]? = some y ∧ bvFlip x i = ok y) by
    obtain ⟨l, h1, h2, h3⟩ := h
    refine ⟨l, hset, h1, h2, h3, ?_, ?_⟩
    · rw [List.Nodup, List.pairwise_iff_getElem]
      intro i j hi hj hij he
      obtain ⟨y, e1, e2⟩ := h3 i (by omega)
      obtain ⟨z, e3, e4⟩ := h3 j (by omega)
      rw [List.getElem?_eq_getElem hi] at e1
      rw [List.getElem?_eq_getElem hj] at e3
      cases e1; cases e3
      rw [← he, ← flip_singleton (by omega)] at e4
      rw [← flip_singleton (by omega)] at e2
      have := flip_inj (List.pairwise_singleton _ _) (List.pairwise_singleton _ _)
        (by simp; omega) (by simp; omega) e2 e4
      simp at this
      omega
    · intro y
      rw [distance_iff]
      constructor
      · intro hy
        obtain ⟨i, hi, rfl⟩ := List.mem_iff_getElem.mp hy
        obtain ⟨y, e1, e2⟩ := h3 i (by omega)
        rw [List.getElem?_eq_getElem hi] at e1
        cases e1
        exact ⟨[i], List.pairwise_singleton _ _, by simp; omega, rfl,
          by rw [flip_singleton (by omega)]; exact e2⟩
      · rintro ⟨L, -, hr, hl, hf⟩
        obtain ⟨i, rfl⟩ := List.length_eq_one_iff.mp hl
        have hi : i < x.length := hr i (by simp)
        obtain ⟨z, e1, e2⟩ := h3 i hi
        rw [flip_singleton hi, e2] at hf
        cases hf
        exact List.mem_of_getElem? e1
  by_cases h0 : 0 < x.length
  · obtain ⟨l, hl, hlen, hk⟩ := SingleBitFlipIterator.enumerates_from x (x.length - 1) 0 (by omega)
    have hy := bvFlip_ok h0
    refine ⟨x.set 0 (!x[0]) :: l, .step ?_ ?_ (hl _ hy), by simp [hlen]; omega, ?_⟩
    · simp [SingleBitFlipIterator.hasNext, SingleBitFlipIterator.init, h0]
    · simp [SingleBitFlipIterator.next, SingleBitFlipIterator.hasNext, SingleBitFlipIterator.init,
        h0, hy]
    · intro i hi
      cases i with
      | zero => exact ⟨_, rfl, hy⟩
      | succ i =>
        obtain ⟨y, e1, e2⟩ := hk i (by omega)
        exact ⟨y, by simpa using e1, by rw [← e2]; congr 1; omega⟩
  · have : x = [] := List.eq_nil_of_length_eq_zero (by omega)
    subst this
    exact ⟨[], .done (by simp [SingleBitFlipIterator.hasNext, SingleBitFlipIterator.init]), rfl,
      by simp⟩

example : Enumerates SingleBitFlipIterator.hasNext SingleBitFlipIterator.next
    { current := [true, false, true], index := 17, initialState := true }
    [[false, false, true], [true, true, true], [true, false, false]] :=
  .step rfl rfl (.step rfl rfl (.step rfl rfl (.done rfl)))

/-! ### C09: Hamming sphere iterator -/

namespace HammingSphereIterator

theorem hasNext_eq (n : Nat) (it : HammingSphereIterator) (hb : it.bitIndexes ≠ [])
    (hn : it.current.length = n) (hr : it.bitIndexes.length = it.radius)
    (hi : it.initialState = false) :
    it.hasNext = ok (succComb n it.bitIndexes).isSome := by
  have hpos : 0 < it.bitIndexes.length := List.length_pos_iff.mpr hb
  simp only [hasNext]
  simp only [hi, Bool.false_eq_true, if_false]
  rw [if_neg (by omega), ← hr, hn]
  rcases nextIndexes_spec n it.bitIndexes hb with ⟨b', hs, hnx, u, hu, hcase⟩ | ⟨hs, u, hu, hnot, hf⟩
  · rw [hu, hs]
    simp only [ok_bind, Option.isSome_some]
    by_cases hlt : (u : Int) < (n : Int) - 1
    · simp [hlt]
    · rcases hcase with hcase | ⟨j, -, hj⟩
      · exact absurd hcase hlt
      · simp [hlt, hj]
  · rw [hu, hs]
    simp [hnot, hf]

theorem enumerates_from (x : BV) (r : Nat) {c e : List Nat} {l : List (List Nat)}
    (h : StepsTo x.length c l e) (he : succComb x.length e = none) :
    ∀ (it : HammingSphereIterator), it.bitIndexes = c → it.radius = r → it.initialState = false →
      bvFlipSparse x c = ok it.current → 0 < r →
      (∀ c' ∈ c :: l, c'.Pairwise (· < ·) ∧ (∀ i ∈ c', i < x.length) ∧ c'.length = r) →
      ∃ ys : List BV, Enumerates hasNext next it ys ∧ ys.map ok = l.map (bvFlipSparse x) := by
  induction h with
  | done c =>
    intro it h1 h2 h3 h4 h5 h6
    obtain ⟨hs, hr, hl⟩ := h6 c (by simp)
    obtain ⟨y, hy, hylen, -⟩ := bvFlipSparse_exact x c hs hr
    rw [hy] at h4; cases h4
    have hne : c ≠ [] := by rintro rfl; simp at hl; omega
    have := hasNext_eq x.length it (by rw [h1]; exact hne) (by omega) (by rw [h1, h2, hl]) h3
    rw [h1, he] at this
    exact ⟨[], .done this, rfl⟩
  | @step c c' l e hs hst ih =>
    intro it h1 h2 h3 h4 h5 h6
    obtain ⟨hs1, hr1, hl1⟩ := h6 c (by simp)
    obtain ⟨hs2, hr2, hl2⟩ := h6 c' (by simp)
    obtain ⟨y, hy, hylen, -⟩ := bvFlipSparse_exact x c hs1 hr1
    rw [hy] at h4; cases h4
    obtain ⟨y', hy', hylen', -⟩ := bvFlipSparse_exact x c' hs2 hr2
    have hne : c ≠ [] := by rintro rfl; simp at hl1; omega
    have hN := hasNext_eq x.length it (by rw [h1]; exact hne) (by omega) (by rw [h1, h2, hl1]) h3
    rw [h1, hs] at hN
    simp only [Option.isSome_some] at hN
    have hvalid : sbvIsValid c x.length = true :=
      (sbvIsValid_iff _ _).mpr ⟨hs1.imp (fun h => Nat.le_of_lt h), hr1⟩
    have hback := bvFlipSparse_twice x c hvalid
    rw [hy] at hback
    simp only [ok_bind] at hback
    have hidx : nextIndexes x.length r c = ok c' := by
      rcases HammingSphereIterator.nextIndexes_spec x.length c hne with
        ⟨b', e1, e2, -⟩ | ⟨e1, -⟩
      · rw [hs] at e1; cases e1
        rw [← hl1]; exact e2
      · rw [hs] at e1; cases e1
    obtain ⟨ys, e1, e2⟩ := ih he { it with current := y', bitIndexes := c' } rfl h2 h3 hy' h5
      (fun d hd => h6 d (by simp at hd ⊢; right; exact hd))
    refine ⟨y' :: ys, .step hN ?_ e1, by simp [e2, hy']⟩
    simp only [next]
    rw [hN]
    simp only [ok_bind, assert_true, h3, Bool.false_eq_true, if_false, h1]
    rw [hback]
    simp only [ok_bind, h2, hidx, hy', pure_eq]

end HammingSphereIterator

/-- C09: for every origin of size `n` and radius `1 <= r <= n`, exhausting the iterator yields exactly
the vectors at Hamming distance `r` from the origin, each once.  The iterator can be in any state
before `set_origin` and `init`. -/
theorem hammingSphereIterator_enumerates (it : HammingSphereIterator) (x : BV)
    (hx : x.length = it.current.length) (hb : it.bitIndexes.length = it.radius)
    (hr1 : 1 ≤ it.radius) (hrn : it.radius ≤ x.length) :
    ∃ it' l, it.setOrigin x = ok it' ∧
      Enumerates HammingSphereIterator.hasNext HammingSphereIterator.next it'.init l ∧
      l.Nodup ∧ ∀ y : BV, y ∈ l ↔ bvHammingDistance x y = ok it.radius := by
  refine ⟨{ it with current := x }, ?_⟩
  have hset : it.setOrigin x = ok { it with current := x } := by
    simp [HammingSphereIterator.setOrigin, hx]
  obtain ⟨rest, hc, hst⟩ := combs_steps x.length x.length 0 (it.radius - 1) (by omega) (by omega)
  rw [show it.radius - 1 + 1 = it.radius by omega] at hc hst
  have hcomb : ∀ c' ∈ List.range' 0 it.radius :: rest,
      c'.Pairwise (· < ·) ∧ (∀ i ∈ c', i < x.length) ∧ c'.length = it.radius := by
    intro c' h'
    rw [← hc] at h'
    obtain ⟨h1, h2, h3⟩ := mem_combs.mp h'
    exact ⟨h1, fun i hi => by have := h2 i hi; omega, h3⟩
  obtain ⟨h1, h2, h3⟩ := hcomb _ (List.mem_cons_self)
  obtain ⟨y0, hy0, -, -⟩ := bvFlipSparse_exact x (List.range' 0 it.radius) h1 h2
  obtain ⟨ys, hys, hmap⟩ := HammingSphereIterator.enumerates_from x it.radius hst
    (succComb_last _ _ hrn)
    { it with current := y0, bitIndexes := List.range' 0 it.radius, initialState := false }
    rfl rfl rfl hy0 (by omega) hcomb
  have hall : (y0 :: ys).map ok = (combs x.length 0 it.radius).map (bvFlipSparse x) := by
    rw [hc]; simp [hmap, hy0]
  have hN : (HammingSphereIterator.init { it with current := x }).hasNext = ok true := by
    have : (HammingSphereIterator.init { it with current := x }).hasNext
      = ok (decide (0 < x.length) && decide (0 < it.radius)) := rfl
    rw [this, decide_eq_true (show 0 < x.length by omega),
      decide_eq_true (show 0 < it.radius by omega)]
    rfl
  refine ⟨y0 :: ys, hset, .step hN ?_ hys, ?_, ?_⟩
  · simp only [HammingSphereIterator.next]
    rw [hN]
    simp [HammingSphereIterator.init, hb, hy0]
  · have : ((y0 :: ys).map ok).Nodup := by
      rw [hall]
      refine List.pairwise_map.mpr (List.Pairwise.imp_of_mem ?_ (nodup_combs))
      intro a b ha hb hab he
      obtain ⟨a1, a2, -⟩ := mem_combs.mp ha
      obtain ⟨b1, b2, -⟩ := mem_combs.mp hb
      have ha' : ∀ i ∈ a, i < x.length := fun i hi => by have := a2 i hi; omega
      have hb' : ∀ i ∈ b, i < x.length := fun i hi => by have := b2 i hi; omega
      obtain ⟨y, hy, -⟩ := bvFlipSparse_exact x a a1 ha'
      exact hab (flip_inj a1 b1 ha' hb' hy (he ▸ hy))
    exact (List.pairwise_map.mp this).imp (fun hne he => hne (congrArg _ he))
  · intro y
    rw [distance_iff]
    have key : y ∈ y0 :: ys ↔ (ok y : Outcome BV) ∈ (y0 :: ys).map ok := by
      rw [List.mem_map]
      constructor
      · intro h; exact ⟨y, h, rfl⟩
      · rintro ⟨z, h, e⟩; cases e; exact h
    rw [key, hall, List.mem_map]
    constructor
    · rintro ⟨L, hL, e⟩
      obtain ⟨a1, a2, a3⟩ := mem_combs.mp hL
      exact ⟨L, a1, fun i hi => by have := a2 i hi; omega, a3, e⟩
    · rintro ⟨L, a1, a2, a3, e⟩
      exact ⟨L, mem_combs.mpr ⟨a1, fun i hi => by have := a2 i hi; omega, a3⟩, e⟩

/-- C09: a newly constructed iterator meets the assumptions, and radius 0 yields nothing. -/
theorem hammingSphereIterator_new (n r : Nat) (h : r ≤ n) :
    (HammingSphereIterator.new n r).Returns (fun it => it.current.length = n ∧ it.radius = r ∧
      it.bitIndexes.length = it.radius ∧
      (r = 0 → Enumerates HammingSphereIterator.hasNext HammingSphereIterator.next it [])) := by
  unfold HammingSphereIterator.new
  rw [assert_pos (decide_eq_true h)]
  simp only [ok_bind, pure_eq, returns_ok, List.length_replicate, true_and]
  rintro rfl
  exact .done (by simp [HammingSphereIterator.hasNext])

example : Enumerates HammingSphereIterator.hasNext HammingSphereIterator.next
    { current := [true, false, true], radius := 2, bitIndexes := [0, 0], initialState := true }
    [[false, true, true], [false, false, false], [true, true, false]] :=
  .step rfl rfl (.step rfl rfl (.step rfl rfl (.done rfl)))

/-- The vectors at distance `r`, by recursion. -/
def sphere : BV → Nat → List BV
  | [], 0 => [[]]
  | [], _ + 1 => []
  | b :: t, 0 => (sphere t 0).map (b :: ·)
  | b :: t, r + 1 => (sphere t (r + 1)).map (b :: ·) ++ (sphere t r).map ((!b) :: ·)

theorem sphere_length : ∀ (x : BV) (r : Nat), (sphere x r).length = x.length.choose r
  | [], 0 => rfl
  | [], _ + 1 => rfl
  | b :: t, 0 => by simp [sphere, sphere_length t 0]
  | b :: t, r + 1 => by
    simp only [sphere, List.length_append, List.length_map, sphere_length t r, sphere_length t (r + 1), List.length_cons,
      Nat.choose_succ_succ, Nat.succ_eq_add_one]
    omega

theorem mem_sphere : ∀ (x : BV) (r : Nat) (y : BV),
    y ∈ sphere x r ↔ x.length = y.length ∧ (List.zipWith (fun a b => a != b) x y).count true = r
  | [], 0, y => by cases y <;> simp [sphere]
  | [], r + 1, y => by cases y <;> simp [sphere]
  | b :: t, 0, [] => by simp [sphere]
  | b :: t, 0, c :: y => by
    have ih := mem_sphere t 0 y
    cases b <;> cases c <;> simp_all [sphere]
  | b :: t, r + 1, [] => by simp [sphere]
  | b :: t, r + 1, c :: y => by
    have ih := mem_sphere t (r + 1) y
    have ih' := mem_sphere t r y
    cases b <;> cases c <;> simp_all [sphere]

theorem nodup_sphere : ∀ (x : BV) (r : Nat), (sphere x r).Nodup
  | [], 0 => by simp [sphere]
  | [], _ + 1 => by simp [sphere]
  | b :: t, 0 => by
    simp only [sphere]
    exact (nodup_sphere t 0).map fun _ _ h => by simpa using h
  | b :: t, r + 1 => by
    simp only [sphere]
    refine List.Nodup.append ((nodup_sphere t (r + 1)).map fun _ _ h => by simpa using h)
      ((nodup_sphere t r).map fun _ _ h => by simpa using h) ?_
    intro y h1 h2
    obtain ⟨u, _, rfl⟩ := List.mem_map.mp h1
    obtain ⟨v, _, h⟩ := List.mem_map.mp h2
    cases b <;> simp at h

/-- C09: the number of vectors at distance `r`, hence of those which the iterator yields, is "`n` choose `r`". -/
theorem hammingSphere_count {x : BV} {r : Nat} {l : List BV} (hnd : l.Nodup)
    (hmem : ∀ y : BV, y ∈ l ↔ bvHammingDistance x y = ok r) : l.length = x.length.choose r := by
  rw [← sphere_length]
  refine List.Perm.length_eq ((List.perm_ext_iff_of_nodup hnd (nodup_sphere x r)).mpr fun y => ?_)
  rw [hmem, mem_sphere]
  constructor
  · intro h
    have hl : x.length = y.length := by
      unfold bvHammingDistance at h
      by_contra hne
      rw [assert_neg (by simpa using hne)] at h
      cases h
    rw [bvHammingDistance_ok hl] at h
    exact ⟨hl, by cases h; rfl⟩
  · rintro ⟨hl, h⟩
    rw [bvHammingDistance_ok hl, h]

/-- The three vectors at distance two of a vector of size three. -/
example : [[false, true, true], [false, false, false], [true, true, false]].length = [true, false, true].length.choose 2 := by decide

end Hnco
