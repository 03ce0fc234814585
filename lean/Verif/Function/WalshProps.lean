import Verif.Function.Walsh
import Verif.Iterator.Props
import Verif.Function.IsingProps
import Mathlib.Algebra.BigOperators.Group.List.Lemmas
import Mathlib.Algebra.BigOperators.Ring.List
import Mathlib.Tactic.LinearCombination

/-!
# Walsh transforms (C34)
-/

namespace Hnco

open Outcome

variable {K : Type} [CommRing K]

/-! ## Specification -/

/-- All bit vectors of size `n`. -/
def allBV : Nat → List BV
  | 0 => [[]]
  | n + 1 => (allBV n).map (· ++ [false]) ++ (allBV n).map (· ++ [true])

/-- `(-1)^{x·u}`. -/
def walshSign (K : Type) [CommRing K] (x u : BV) : K :=
  (-1) ^ (List.zipWith (fun a b => a && b) x u).count true

/-- The Walsh coefficient `Σ_x f(x) (-1)^{x·u}`, not normalized. -/
def walshCoefficient (n : Nat) (f : BV → K) (u : BV) : K :=
  ((allBV n).map (fun x => walshSign K x u * f x)).sum

/-! ## Helper lemmas -/

theorem length_of_mem_allBV {n : Nat} : ∀ {x : BV}, x ∈ allBV n → x.length = n := by
  induction n with
  | zero => intro x h; simp [allBV] at h; simp [h]
  | succ n ih =>
    intro x h
    simp only [allBV, List.mem_append, List.mem_map] at h
    rcases h with ⟨w, hw, rfl⟩ | ⟨w, hw, rfl⟩ <;> simp [ih hw]

theorem bitsToNat_append (x y : BV) : bitsToNat (x ++ y) = bitsToNat x + 2 ^ x.length * bitsToNat y := by
  induction x with
  | nil => simp [bitsToNat]
  | cons b t ih => simp only [List.cons_append, bitsToNat, ih, List.length_cons, pow_succ]; ring

theorem allBV_map_bitsToNat (n : Nat) : (allBV n).map bitsToNat = List.range (2 ^ n) := by
  induction n with
  | zero => rfl
  | succ n ih =>
    have e1 : (allBV n).map (bitsToNat ∘ fun x => x ++ [false]) = (allBV n).map bitsToNat := by
      apply List.map_congr_left
      intro x hx
      simp [bitsToNat_append, bitsToNat]
    have e2 : (allBV n).map (bitsToNat ∘ fun x => x ++ [true]) =
        ((allBV n).map bitsToNat).map (2 ^ n + ·) := by
      rw [List.map_map]
      apply List.map_congr_left
      intro x hx
      simp only [Function.comp, bitsToNat_append, bitsToNat, length_of_mem_allBV hx]
      simp; ring
    simp only [allBV, List.map_append, List.map_map, e1, e2, ih]
    rw [pow_succ, Nat.mul_two, List.range_add]

theorem allBV_full (n : Nat) : IsFullEnumeration n (allBV n) :=
  ⟨fun _ => length_of_mem_allBV, allBV_map_bitsToNat n⟩

theorem IsFullEnumeration.eq_allBV {n : Nat} {l : List BV} (h : IsFullEnumeration n l) : l = allBV n := by
  apply List.ext_getElem?
  intro i
  have h1 := congrArg (fun t : List Nat => t[i]?) h.2
  have h2 := congrArg (fun t : List Nat => t[i]?) (allBV_map_bitsToNat n)
  simp only [List.getElem?_map] at h1 h2
  rw [← h2] at h1
  rcases ha : l[i]? with _ | a <;> rcases hb : (allBV n)[i]? with _ | b
  · rfl
  · simp [ha, hb] at h1
  · simp [ha, hb] at h1
  · simp only [ha, hb, Option.map_some, Option.some.injEq] at h1
    rw [HypercubeIterator.bitsToNat_inj ?_ h1]
    rw [h.1 a (List.mem_of_getElem? ha), length_of_mem_allBV (List.mem_of_getElem? hb)]

theorem mem_allBV {n : Nat} {x : BV} : x ∈ allBV n ↔ x.length = n := (allBV_full n).exactly_once.2 x

theorem allBV_nodup (n : Nat) : (allBV n).Nodup := (allBV_full n).exactly_once.1

theorem allBV_length (n : Nat) : (allBV n).length = 2 ^ n := by
  have := congrArg List.length (allBV_map_bitsToNat n)
  simpa using this

theorem allBV_getElem {n : Nat} {x : BV} (hx : x.length = n) : (allBV n)[bitsToNat x]? = some x := by
  obtain ⟨i, hi⟩ := List.mem_iff_getElem?.mp (mem_allBV.mpr hx)
  have h2 := congrArg (fun t : List Nat => t[i]?) (allBV_map_bitsToNat n)
  simp only [List.getElem?_map, hi, Option.map_some] at h2
  have hlt : i < 2 ^ n := by
    rw [← allBV_length n]
    exact (List.getElem?_eq_some_iff.mp hi).1
  rw [List.getElem?_range hlt] at h2
  rw [Option.some.inj h2]
  exact hi

theorem sum_allBV_succ {L : Type} [AddCommMonoid L] (n : Nat) (g : BV → L) :
    ((allBV (n + 1)).map g).sum = ((allBV n).map (fun w => g (w ++ [false]) + g (w ++ [true]))).sum := by
  simp only [allBV, List.map_append, List.sum_append, List.map_map, List.sum_map_add]
  rfl

/-! ### Words -/

theorem bvToWord_bitsToNat (x : BV) (h : x.length ≤ 64) :
    ∃ w, bvToWord x = ok w ∧ w.toNat = bitsToNat x := by
  obtain ⟨w, hw, hb⟩ := bvToWord_bits x h
  refine ⟨w, hw, ?_⟩
  apply Nat.eq_of_testBit_eq
  intro i
  rw [bitsToNat_testBit, Bool.eq_iff_iff, hb i]
  rcases x[i]? with _ | b
  · simp
  · simp

theorem bvFromWord_bitsToNat (d x : BV) (h : x.length ≤ 64) (hd : d.length = x.length) :
    bvFromWord d (BitVec.ofNat 64 (bitsToNat x)) = ok x := by
  obtain ⟨w, hw, hn⟩ := bvToWord_bitsToNat x h
  have := bvToWord_fromWord x d h hd
  rw [hw, ok_bind] at this
  rw [← hn, BitVec.ofNat_toNat]
  simpa using this

theorem bvToVectorBool_eq (y x : BV) (hy : y.length = x.length) : bvToVectorBool y x = ok x := by
  simp only [bvToVectorBool, hy, beq_self_eq_true, assert_true, ok_bind]
  exact copyLoop_ok hy

/-! ### Loops on iterators -/

theorem forEach_returns {α σ : Type} {body : α → σ → Outcome σ} (I : List α → σ → Prop) (l : List α)
    (s : σ) (h0 : I [] s) (hs : ∀ done a rest t, l = done ++ a :: rest → I done t →
      (body a t).Returns (I (done ++ [a]))) : (forEach l body s).Returns (I l) := by
  have key : ∀ (rest done : List α) (t : σ), l = done ++ rest → I done t →
      (forEach rest body t).Returns (I l) := by
    intro rest
    induction rest with
    | nil => intro done t hl ht; rw [hl, List.append_nil]; exact ⟨t, rfl, ht⟩
    | cons a rest ih =>
      intro done t hl ht
      refine Returns.bind (hs done a rest t hl ht) ?_
      intro t' ht'
      exact ih (done ++ [a]) t' (by rw [hl]; simp) ht'
  exact key l [] s rfl h0

/-- A loop on an iterator is a loop on the list of its elements. -/
theorem iterLoop_enumerates {I α σ : Type} {hasNext : I → Outcome Bool} {next : I → Outcome (α × I)}
    {body : α → σ → Outcome σ} (P : I → Prop) (hP : ∀ it p, P it → next it = ok p → P p.2)
    {it : I} {l : List α} (h : Enumerates hasNext next it l) (hit : P it) :
    ∀ (fuel : Nat) (s s' : σ), l.length < fuel → forEach l body s = ok s' →
      ∃ it', iterLoop hasNext next body fuel it s = ok (it', s') ∧ P it' := by
  induction h with
  | done hc =>
    intro fuel s s' hf hs
    obtain ⟨k, rfl⟩ : ∃ k, fuel = k + 1 := ⟨fuel - 1, by simp at hf; omega⟩
    simp only [forEach, Outcome.ok.injEq] at hs
    subst hs
    exact ⟨_, by simp [iterLoop, hc], hit⟩
  | step hc hb _ ih =>
    intro fuel s s' hf hs
    obtain ⟨k, rfl⟩ : ∃ k, fuel = k + 1 := ⟨fuel - 1, by simp at hf; omega⟩
    simp only [forEach, bind_eq_ok] at hs
    obtain ⟨t, h1, h2⟩ := hs
    obtain ⟨it', h3, h4⟩ := ih (hP _ _ hit hb) k t s' (by simp at hf; omega) h2
    exact ⟨it', by simp [iterLoop, hc, hb, h1, h3], h4⟩

theorem hypercube_next_length (it : HypercubeIterator) (p : BV × HypercubeIterator)
    (h : it.next = ok p) : p.2.current.length = it.current.length := by
  unfold HypercubeIterator.next at h
  simp only [bind_eq_ok] at h
  obtain ⟨b, -, -, -, h⟩ := h
  split at h
  · simp only [Outcome.pure_eq, Outcome.ok.injEq] at h
    rw [← h]; simp [bvClear]
  · simp only [Outcome.pure_eq, Outcome.ok.injEq] at h
    rw [← h]; simp [HypercubeIterator.length_increment]

theorem hypercube_loop {σ : Type} {body : BV → σ → Outcome σ} (n : Nat) (hn : 0 < n) (it : HypercubeIterator)
    (hit : it.current.length = n) (s s' : σ) (h : forEach (allBV n) body s = ok s') :
    ∃ it', iterLoop HypercubeIterator.hasNext HypercubeIterator.next body (2 ^ n + 1) it.init s =
      ok (it', s') ∧ it'.current.length = n := by
  obtain ⟨l, h1, h2⟩ := hypercubeIterator_enumerates it (by omega)
  rw [hit] at h2
  rw [h2.eq_allBV] at h1
  exact iterLoop_enumerates (fun it => it.current.length = n)
    (fun it p hp hnext => by rw [hypercube_next_length it p hnext]; exact hp) h1 hit (2 ^ n + 1) _ _
    (by rw [allBV_length]; omega) h

theorem extHypercube_loop {σ : Type} {body : BV → σ → Outcome σ} (n : Nat) (s s' : σ)
    (h : forEach (allBV n) body s = ok s') :
    ∃ it', iterLoop HypercubeIterator.extHasNext HypercubeIterator.extNext body (2 ^ n + 1)
      (HypercubeIterator.new n) s = ok (it', s') := by
  obtain ⟨l, h1, h2⟩ := extendedHypercubeIterator_enumerates (HypercubeIterator.new n)
  have hl : (HypercubeIterator.new n).current.length = n := by simp [HypercubeIterator.new]
  rw [hl] at h2
  rw [h2.eq_allBV] at h1
  obtain ⟨it', h3, -⟩ := iterLoop_enumerates (fun _ => True) (fun _ _ _ _ => trivial) h1 trivial (2 ^ n + 1) s s'
    (by rw [allBV_length]; omega) h
  exact ⟨it', h3⟩

/-! ### Tables of coefficients -/

/-- A table of coefficients, indexed by bit vectors. -/
def table (n : Nat) (C : BV → K) : List K := (allBV n).map C

theorem table_length (n : Nat) (C : BV → K) : (table n C).length = 2 ^ n := by
  simp [table, allBV_length]

theorem table_get {n : Nat} (C : BV → K) {u : BV} (hu : u.length = n) :
    vget (table n C) (bitsToNat u) = ok (C u) := by
  unfold vget table
  rw [List.getElem?_map, allBV_getElem hu]
  rfl

theorem table_set {n : Nat} (C : BV → K) {u : BV} (hu : u.length = n) (c : K) :
    vset (table n C) (bitsToNat u) c = ok (table n (fun y => if y = u then c else C y)) := by
  have hlt : bitsToNat u < 2 ^ n := hu ▸ bitsToNat_lt u
  rw [vset_eq (by rw [table_length]; exact hlt)]
  congr 1
  unfold table
  apply List.ext_getElem?
  intro i
  by_cases h : bitsToNat u = i
  · subst h
    rw [List.getElem?_set_self (by rw [List.length_map, allBV_length]; exact hlt), List.getElem?_map,
      allBV_getElem hu]
    simp
  · rw [List.getElem?_set_ne h, List.getElem?_map, List.getElem?_map]
    rcases hi : (allBV n)[i]? with _ | y
    · rfl
    · have hne : y ≠ u := by
        rintro rfl
        have := allBV_getElem hu
        exact h ((List.getElem?_inj (by rw [allBV_length]; exact hlt) (allBV_nodup n)).mp
          (this.trans hi.symm))
      simp [hne]

theorem table_congr {n : Nat} {C D : BV → K} (h : ∀ u : BV, u.length = n → C u = D u) :
    table n C = table n D :=
  List.map_congr_left (fun u hu => h u (mem_allBV.mp hu))

theorem table_zero (n : Nat) : List.replicate (2 ^ n) (0 : K) = table n (fun _ => 0) := by
  unfold table
  rw [List.map_const', allBV_length]

/-- The table determines the terms. -/
theorem walshTerms_table [DecidableEq K] (n : Nat) (hn : n < 31) (C : BV → K) :
    walshTerms n (table n C) = ok (((allBV n).filter (fun u => C u ≠ 0)).map
      (fun u => { feature := u, coefficient := C u })) := by
  unfold walshTerms
  rw [table_length]
  have := forRange_returns (a := 0) (b := 2 ^ n)
    (I := fun k (st : List (WalshTerm K) × List Bool × BV) =>
      st.2.1.length = n ∧ st.2.2.length = n ∧
      st.1 = (((allBV n).take k).filter (fun u => C u ≠ 0)).map
        (fun u => { feature := u, coefficient := C u }))
    (body := fun i (st : List (WalshTerm K) × List Bool × BV) => do
      let c ← vget (table n C) i
      if c ≠ 0 then do
        let bv ← bvFromWord st.2.2 (BitVec.ofNat 64 i)
        let feature ← bvToVectorBool st.2.1 bv
        ok (st.1 ++ [{ feature := feature, coefficient := c }], feature, bv)
      else ok st)
    (s := ([], List.replicate n false, List.replicate n false)) (Nat.zero_le _) (by simp) (by
      rintro i ⟨ts, feature, bv⟩ - hi ⟨h1, h2, h3⟩
      simp only at h1 h2 h3
      have hi' : i < (allBV n).length := by rw [allBV_length]; exact hi
      obtain ⟨u, hu⟩ : ∃ u, (allBV n)[i]? = some u := ⟨_, List.getElem?_eq_getElem hi'⟩
      have hul : u.length = n := length_of_mem_allBV (List.mem_of_getElem? hu)
      have hidx : i = bitsToNat u :=
        (List.getElem?_inj hi' (allBV_nodup n)).mp (hu.trans (allBV_getElem hul).symm)
      have htake : (allBV n).take (i + 1) = (allBV n).take i ++ [u] := by
        rw [List.take_add_one, hu]; rfl
      rw [htake, List.filter_append, List.map_append, ← h3]
      by_cases hc : C u ≠ 0
      · refine ⟨(ts ++ [{ feature := u, coefficient := C u }], u, u), ?_, hul, hul, ?_⟩
        · rw [hidx, table_get C hul, ok_bind, if_pos hc]
          rw [bvFromWord_bitsToNat bv u (by omega) (by omega), ok_bind,
            bvToVectorBool_eq feature u (by omega)]
          rfl
        · simp [hc]
      · refine ⟨(ts, feature, bv), ?_, h1, h2, ?_⟩
        · rw [hidx, table_get C hul, ok_bind, if_neg hc]
        · simp [hc])
  obtain ⟨st, h1, -, -, h4⟩ := this
  rw [h1, ok_bind, h4]
  rw [List.take_of_length_le (by rw [allBV_length])]
  rfl

theorem walshSign_eq (x u : BV) (h : x.length = u.length) :
    ∃ b, bvDotProduct x u = ok b ∧ walshSign K x u = if b then -1 else 1 := by
  refine ⟨_, bvDotProduct_ok h, ?_⟩
  unfold walshSign
  rcases Nat.even_or_odd ((List.zipWith (fun a b => a && b) x u).count true) with he | ho
  · rw [he.neg_one_pow, if_neg (by simp [Nat.even_iff.mp he])]
  · rw [ho.neg_one_pow, if_pos (by simp [Nat.odd_iff.mp ho])]

theorem walshCoefficients_eq (fn : Fn K) (f : BV → K) (hn : 0 < fn.size) (hn' : fn.size < 31)
    (hf : ∀ x : BV, x.length = fn.size → fn.eval x = ok (f x)) :
    walshCoefficients fn = ok (table fn.size (walshCoefficient fn.size f)) := by
  obtain ⟨n, hsize⟩ : ∃ n, fn.size = n := ⟨_, rfl⟩
  unfold walshCoefficients
  rw [hsize] at hn hn' hf ⊢
  simp only [shiftOne, if_pos hn', ok_bind]
  have outer := forEach_returns
    (body := fun x (st : HypercubeIterator × List K) => do
      let value ← fn.eval x
      iterLoop HypercubeIterator.hasNext HypercubeIterator.next (walshBody x value) (2 ^ n + 1)
        st.1.init st.2)
    (fun done (st : HypercubeIterator × List K) => st.1.current.length = n ∧
      st.2 = table n (fun u => (done.map (fun x => walshSign K x u * f x)).sum))
    (allBV n) (HypercubeIterator.new n, List.replicate (2 ^ n) 0)
    ⟨by simp [HypercubeIterator.new], by simp [table_zero]⟩ (by
      rintro done x rest ⟨it, coefs⟩ hl ⟨h1, h2⟩
      simp only at h1 h2
      have hx : x.length = n := mem_allBV.mp (by rw [hl]; simp)
      simp only [hf x hx, ok_bind]
      have inner := forEach_returns (body := walshBody x (f x))
        (fun done' t => t = table n (fun u => if u ∈ done' then
          (done.map (fun x => walshSign K x u * f x)).sum + walshSign K x u * f x
          else (done.map (fun x => walshSign K x u * f x)).sum)) (allBV n) coefs
        (by simpa using h2) (by
          intro done' u rest' t hl' ht
          have hu : u.length = n := mem_allBV.mp (by rw [hl']; simp)
          have hnot : u ∉ done' := by
            have := allBV_nodup n
            rw [hl', List.nodup_append] at this
            intro hmem
            exact this.2.2 u hmem u (by simp) rfl
          obtain ⟨w, hw, hwn⟩ := bvToWord_bitsToNat u (by omega)
          obtain ⟨b, hb, hsb⟩ := walshSign_eq (K := K) x u (by omega)
          have hlt : bitsToNat u < 2 ^ n := hu ▸ bitsToNat_lt u
          refine ⟨_, ?_, rfl⟩
          unfold walshBody
          rw [hw, ok_bind, hwn, ht, assert_pos (by rw [table_length]; simpa using hlt), ok_bind, hb, ok_bind,
            table_get _ hu, ok_bind, table_set _ hu]
          congr 1
          apply table_congr
          intro y _
          by_cases hy : y = u
          · subst hy
            simp only [if_true, hnot, if_false, List.mem_append, List.mem_singleton, or_true, hsb]
            cases b <;> simp [sub_eq_add_neg]
          · simp [hy])
      obtain ⟨coefs', h3, h4⟩ := inner
      obtain ⟨it', h5, h6⟩ := hypercube_loop n hn it h1 coefs coefs' h3
      refine ⟨(it', coefs'), h5, h6, ?_⟩
      simp only
      rw [h4]
      apply table_congr
      intro u hu
      simp [mem_allBV.mpr hu])
  obtain ⟨st, h1, -, h2⟩ := outer
  obtain ⟨it', h3, -⟩ := hypercube_loop n hn (HypercubeIterator.new n) (by simp [HypercubeIterator.new]) _ _ h1
  rw [h3, ok_bind, h2]
  rfl

/-! ### The fast transform -/

/-- Sign for one bit. -/
def bitSign (K : Type) [CommRing K] (a b : Bool) : K := if a && b then -1 else 1

theorem walshSign_append (x u : BV) (a b : Bool) (h : x.length = u.length) :
    walshSign K (x ++ [a]) (u ++ [b]) = walshSign K x u * bitSign K a b := by
  unfold walshSign bitSign
  rw [List.zipWith_append h, List.count_append, pow_add]
  congr 1
  cases a <;> cases b <;> simp

/-- The coefficients after `k` stages. -/
def partialWalsh (f : BV → K) : Nat → BV → K
  | 0, y => f y
  | k + 1, y => partialWalsh f k (y.set k false) +
      bitSign K true (y[k]?.getD false) * partialWalsh f k (y.set k true)

theorem partialWalsh_eq (f : BV → K) (k : Nat) : ∀ (u v : BV), u.length = k →
    partialWalsh f k (u ++ v) = ((allBV k).map (fun w => walshSign K w u * f (w ++ v))).sum := by
  induction k with
  | zero =>
    intro u v hu
    have : u = [] := List.eq_nil_of_length_eq_zero hu
    subst this
    simp [partialWalsh, allBV, walshSign]
  | succ k ih =>
    intro u v hu
    obtain ⟨u', b, rfl⟩ : ∃ u' b, u = u' ++ [b] := by
      rcases List.eq_nil_or_concat u with h | ⟨u', b, h⟩
      · subst h; simp at hu
      · exact ⟨u', b, by simpa using h⟩
    have hu' : u'.length = k := by simpa using hu
    have hset : ∀ c, (u' ++ [b] ++ v).set k c = u' ++ ([c] ++ v) := by
      intro c
      rw [List.append_assoc, List.set_append_right _ _ (by omega), hu']
      simp
    have hget : (u' ++ [b] ++ v)[k]? = some b := by
      rw [List.append_assoc, List.getElem?_append_right (by omega), hu']
      simp
    rw [partialWalsh, hset, hset, hget, ih _ _ hu', ih _ _ hu', sum_allBV_succ,
      List.sum_map_add, ← List.sum_map_mul_left]
    congr 2
    · apply List.map_congr_left
      intro w hw
      rw [walshSign_append _ _ _ _ (by rw [length_of_mem_allBV hw, hu'])]
      simp [bitSign]
    · apply List.map_congr_left
      intro w hw
      rw [walshSign_append _ _ _ _ (by rw [length_of_mem_allBV hw, hu'])]
      simp only [Option.getD_some, List.append_assoc, List.cons_append, List.nil_append]
      ring

/-- Vectors are made of a prefix, a bit and a suffix. -/
theorem split_at (y : BV) (k n : Nat) (hk : k < n) (hy : y.length = n) :
    ∃ b, y = y.take k ++ b :: y.drop (k + 1) := by
  refine ⟨y[k], ?_⟩
  rw [List.getElem_cons_drop, List.take_append_drop]

theorem fastWalsh_step (fn : Fn K) (f : BV → K) (n k : Nat) (hk : k < n) (hn : n < 31)
    (hf : ∀ x : BV, x.length = n → fn.eval x = ok (f x)) (u v x : BV) (hu : u.length = k)
    (hv : v.length = n - k - 1) (hx : x.length = n) (hxu : x.take k = u) (C : BV → K)
    (h0 : k = 0 ∨ ∀ b, C (u ++ b :: v) = partialWalsh f k (u ++ b :: v)) :
    ∃ x', fastWalshBody fn k v (x, table n C) = ok (x', table n (fun y =>
      if y.take k = u ∧ y.drop (k + 1) = v then partialWalsh f (k + 1) y else C y)) ∧
      x'.length = n ∧ x'.take k = u := by
  have hlen : ∀ b, (u ++ b :: v).length = n := by intro b; simp; omega
  have hcopy : copyBack v x = ok (x.take (k + 1) ++ v) := by
    unfold copyBack
    rw [if_pos (by omega)]
    congr 3
    omega
  have htk : ∃ b, x.take (k + 1) = u ++ [b] := by
    refine ⟨x[k], ?_⟩
    rw [List.take_add_one, hxu, List.getElem?_eq_getElem (by omega)]
    rfl
  obtain ⟨b0, hb0⟩ := htk
  have hset : ∀ (b c : Bool), vset (u ++ b :: v) k c = ok (u ++ c :: v) := by
    intro b c
    rw [vset_eq (by rw [hlen]; exact hk), List.set_append_right _ _ (by omega), hu]
    simp
  obtain ⟨w0, hw0, hn0⟩ := bvToWord_bitsToNat (u ++ false :: v) (by rw [hlen]; omega)
  obtain ⟨w1, hw1, hn1⟩ := bvToWord_bitsToNat (u ++ true :: v) (by rw [hlen]; omega)
  have hlt0 : bitsToNat (u ++ false :: v) < 2 ^ n := by
    have := bitsToNat_lt (u ++ false :: v); rwa [hlen] at this
  have hlt1 : bitsToNat (u ++ true :: v) < 2 ^ n := by
    have := bitsToNat_lt (u ++ true :: v); rwa [hlen] at this
  have hread : fastWalshRead fn k w0.toNat w1.toNat (u ++ true :: v) (table n C) =
      ok (partialWalsh f k (u ++ false :: v), partialWalsh f k (u ++ true :: v), u ++ true :: v) := by
    unfold fastWalshRead
    by_cases hk0 : k = 0
    · rw [if_pos hk0, hset, ok_bind, hf _ (hlen _), ok_bind, hset, ok_bind, hf _ (hlen _), ok_bind, hk0]
      rfl
    · rw [if_neg hk0]
      rcases h0 with h0 | h0
      · exact absurd h0 hk0
      · rw [hn0, hn1, table_get C (hlen _), ok_bind, table_get C (hlen _), ok_bind, h0, h0]
  refine ⟨u ++ true :: v, ?_, hlen _, by rw [List.take_append_of_le_length (by omega), ← hu, List.take_length]⟩
  unfold fastWalshBody
  simp only [hcopy, ok_bind, hb0, List.append_assoc, List.singleton_append, hset, hw0, hw1]
  rw [assert_pos (by rw [table_length, hn0]; simpa using hlt0), ok_bind,
    assert_pos (by rw [table_length, hn1]; simpa using hlt1), ok_bind, hread, ok_bind, hn0, hn1,
    table_set _ (hlen _), ok_bind, table_set _ (hlen _), ok_bind]
  congr 2
  apply table_congr
  intro y hy
  obtain ⟨b, hb⟩ := split_at y k n hk hy
  by_cases hpq : y.take k = u ∧ y.drop (k + 1) = v
  · rw [if_pos hpq]
    rw [hpq.1, hpq.2] at hb
    subst hb
    have hgetk : (u ++ b :: v)[k]? = some b := by
      rw [List.getElem?_append_right (by omega), hu]; simp
    have hs : ∀ c, (u ++ b :: v).set k c = u ++ c :: v := by
      intro c
      rw [List.set_append_right _ _ (by omega), hu]; simp
    simp only [partialWalsh, hgetk, hs, Option.getD_some]
    cases b
    · simp [bitSign]
    · simp [bitSign, sub_eq_add_neg]
  · rw [if_neg hpq, if_neg, if_neg]
    · rintro rfl
      apply hpq
      rw [List.take_append_of_le_length (by omega), ← hu, List.take_length]
      simp
    · rintro rfl
      apply hpq
      rw [List.take_append_of_le_length (by omega), ← hu, List.take_length]
      simp

theorem fastWalshCoefficients_eq (fn : Fn K) (f : BV → K) (hn : 0 < fn.size) (hn' : fn.size < 31)
    (hf : ∀ x : BV, x.length = fn.size → fn.eval x = ok (f x)) :
    fastWalshCoefficients fn = ok (table fn.size (walshCoefficient fn.size f)) := by
  obtain ⟨n, hsize⟩ : ∃ n, fn.size = n := ⟨_, rfl⟩
  unfold fastWalshCoefficients
  rw [hsize] at hn hn' hf ⊢
  simp only [shiftOne, if_pos hn', ok_bind]
  have main := forRange_returns (a := 0) (b := n)
    (I := fun k (st : BV × List K) => st.1.length = n ∧
      ∃ C, st.2 = table n C ∧ (k = 0 ∨ ∀ y : BV, y.length = n → C y = partialWalsh f k y))
    (body := fun k (st : BV × List K) => do
      let r ← iterLoop HypercubeIterator.extHasNext HypercubeIterator.extNext (fastWalshPrefix fn n k)
        (2 ^ k + 1) (HypercubeIterator.new k) st
      ok r.2) (s := (List.replicate n false, List.replicate (2 ^ n) 0)) (by omega)
    ⟨by simp, _, table_zero n, Or.inl rfl⟩ (by
      rintro k ⟨x, coefs⟩ - hk ⟨hx, C, hC, h0⟩
      simp only at hx hC
      have outer := forEach_returns (body := fastWalshPrefix fn n k)
        (fun done (st : BV × List K) => st.1.length = n ∧
          st.2 = table n (fun y => if y.take k ∈ done then partialWalsh f (k + 1) y else C y))
        (allBV k) (x, coefs) ⟨hx, by simpa using hC⟩ (by
          rintro done u rest ⟨x, coefs⟩ hl ⟨h1, h2⟩
          simp only at h1 h2
          have hu : u.length = k := mem_allBV.mp (by rw [hl]; simp)
          have hnot : u ∉ done := by
            have := allBV_nodup k
            rw [hl, List.nodup_append] at this
            intro hmem
            exact this.2.2 u hmem u (by simp) rfl
          unfold fastWalshPrefix
          have hcopy : copyFront u x = ok (u ++ x.drop k) := by
            unfold copyFront
            rw [if_pos (by omega), hu]
          simp only [hcopy, ok_bind]
          have inner := forEach_returns (body := fastWalshBody fn k)
            (fun done' (st : BV × List K) => st.1.length = n ∧ st.1.take k = u ∧
              st.2 = table n (fun y => if y.take k ∈ done ∨ (y.take k = u ∧ y.drop (k + 1) ∈ done')
                then partialWalsh f (k + 1) y else C y))
            (allBV (n - k - 1)) (u ++ x.drop k, coefs)
            ⟨by simp; omega, by simp only; rw [List.take_append_of_le_length (by omega), ← hu, List.take_length],
              by simpa using h2⟩ (by
              rintro done' v rest' ⟨x, coefs⟩ hl' ⟨h1, h2, h3⟩
              simp only at h1 h2 h3
              have hv : v.length = n - k - 1 := mem_allBV.mp (by rw [hl']; simp)
              have hnot' : v ∉ done' := by
                have := allBV_nodup (n - k - 1)
                rw [hl', List.nodup_append] at this
                intro hmem
                exact this.2.2 v hmem v (by simp) rfl
              have htake : ∀ b, (u ++ b :: v).take k = u := by
                intro b
                rw [List.take_append_of_le_length (by omega), ← hu, List.take_length]
              have hdrop : ∀ b, (u ++ b :: v).drop (k + 1) = v := by
                intro b; rw [← hu]; simp
              obtain ⟨x', e1, e2, e3⟩ := fastWalsh_step fn f n k hk hn' hf u v x hu hv h1 h2
                (fun y => if y.take k ∈ done ∨ (y.take k = u ∧ y.drop (k + 1) ∈ done')
                  then partialWalsh f (k + 1) y else C y) (by
                    rcases h0 with h0 | h0
                    · exact Or.inl h0
                    · right
                      intro b
                      simp only [htake, hdrop, hnot, hnot', false_or, true_and, if_false]
                      exact h0 _ (by simp; omega))
              refine ⟨_, by rw [h3]; exact e1, e2, e3, ?_⟩
              apply table_congr
              intro y hy
              by_cases ha : y.take k ∈ done
              · simp [ha]
              · by_cases hb : y.take k = u
                · by_cases hc : y.drop (k + 1) = v
                  · simp [hb, hc]
                  · simp [hb, hc]
                · simp [ha, hb])
          obtain ⟨⟨x', coefs'⟩, e1, e2, e3, e4⟩ := inner
          obtain ⟨it', e5⟩ := extHypercube_loop (n - k - 1) _ _ e1
          rw [e5, ok_bind]
          refine ⟨_, rfl, e2, ?_⟩
          simp only at e4 ⊢
          rw [e4]
          apply table_congr
          intro y hy
          have hmem : y.drop (k + 1) ∈ allBV (n - k - 1) := mem_allBV.mpr (by simp; omega)
          simp [hmem])
      obtain ⟨⟨x', coefs'⟩, e1, e2, e3⟩ := outer
      obtain ⟨it', e4⟩ := extHypercube_loop k _ _ e1
      rw [e4, ok_bind]
      refine ⟨_, rfl, e2, _, e3, Or.inr ?_⟩
      intro y hy
      have hmem : y.take k ∈ allBV k := mem_allBV.mpr (by simp; omega)
      simp [hmem])
  obtain ⟨⟨x', coefs'⟩, e1, -, C, e2, e3⟩ := main
  rw [e1, ok_bind]
  simp only at e2 ⊢
  rw [e2]
  congr 1
  apply table_congr
  intro y hy
  rcases e3 with e3 | e3
  · omega
  · rw [e3 y hy]
    have := partialWalsh_eq f n y [] hy
    simp only [List.append_nil] at this
    rw [this]
    rfl

/-! ### Inversion -/

theorem walsh_inversion (n : Nat) : ∀ (f : BV → K) (x : BV), x.length = n →
    ((allBV n).map (fun u => walshSign K x u * walshCoefficient n f u)).sum = 2 ^ n * f x := by
  induction n with
  | zero =>
    intro f x hx
    have : x = [] := List.eq_nil_of_length_eq_zero hx
    subst this
    simp [allBV, walshSign, walshCoefficient]
  | succ n ih =>
    intro f x hx
    obtain ⟨x', b, rfl⟩ : ∃ x' b, x = x' ++ [b] := by
      rcases List.eq_nil_or_concat x with h | ⟨x', b, h⟩
      · subst h; simp at hx
      · exact ⟨x', b, by simpa using h⟩
    have hx' : x'.length = n := by simpa using hx
    have hco : ∀ (u : BV) (c : Bool), u.length = n → walshCoefficient (n + 1) f (u ++ [c]) =
        walshCoefficient n (fun w => f (w ++ [false]) + bitSign K true c * f (w ++ [true])) u := by
      intro u c hu
      unfold walshCoefficient
      rw [sum_allBV_succ]
      congr 1
      apply List.map_congr_left
      intro w hw
      have hwl := length_of_mem_allBV hw
      rw [walshSign_append _ _ _ _ (by omega), walshSign_append _ _ _ _ (by omega)]
      cases c <;> simp [bitSign] <;> ring
    have key : ∀ c, ((allBV n).map (fun u => walshSign K x' u *
          walshCoefficient (n + 1) f (u ++ [c]))).sum =
        2 ^ n * (f (x' ++ [false]) + bitSign K true c * f (x' ++ [true])) := by
      intro c
      rw [← ih (fun w => f (w ++ [false]) + bitSign K true c * f (w ++ [true])) x' hx']
      congr 1
      apply List.map_congr_left
      intro u hu
      rw [hco u c (length_of_mem_allBV hu)]
    rw [sum_allBV_succ]
    have hsplit : (allBV n).map (fun w => walshSign K (x' ++ [b]) (w ++ [false]) *
          walshCoefficient (n + 1) f (w ++ [false]) +
          walshSign K (x' ++ [b]) (w ++ [true]) * walshCoefficient (n + 1) f (w ++ [true])) =
        (allBV n).map (fun w => walshSign K x' w * walshCoefficient (n + 1) f (w ++ [false]) +
          bitSign K b true * (walshSign K x' w * walshCoefficient (n + 1) f (w ++ [true]))) := by
      apply List.map_congr_left
      intro w hw
      have hwl := length_of_mem_allBV hw
      rw [walshSign_append _ _ _ _ (by omega), walshSign_append _ _ _ _ (by omega)]
      cases b <;> simp [bitSign]
    rw [hsplit, List.sum_map_add, List.sum_map_mul_left, key, key]
    cases b <;> simp [bitSign] <;> ring

theorem walshExpansionEval_eq (terms : List (WalshTerm K)) (x : BV)
    (h : ∀ t ∈ terms, t.feature.length = x.length) :
    walshExpansionEval terms x =
      ok ((terms.map (fun t => walshSign K x t.feature * t.coefficient)).sum) := by
  unfold walshExpansionEval
  rw [forEach_sum _ (fun t => walshSign K x t.feature * t.coefficient), zero_add]
  intro t ht r
  obtain ⟨b, hb, hs⟩ := walshSign_eq (K := K) x t.feature (h t ht).symm
  rw [hb, ok_bind, hs]
  cases b <;> simp [sub_eq_add_neg]

theorem sum_filter_ne_zero [DecidableEq K] (l : List BV) (C g : BV → K) :
    ((l.filter (fun u => C u ≠ 0)).map (fun u => g u * C u)).sum = (l.map (fun u => g u * C u)).sum := by
  induction l with
  | nil => rfl
  | cons u l ih =>
    by_cases h : C u = 0
    · simp only [List.filter_cons, h, ne_eq, not_true_eq_false, decide_false, Bool.false_eq_true, if_false,
        List.map_cons, List.sum_cons, mul_zero, zero_add]
      simpa using ih
    · simp only [List.filter_cons, h, ne_eq, not_false_eq_true, decide_true, if_true,
        List.map_cons, List.sum_cons]
      congr 1

/-! ## Properties -/

/-- C34: the Walsh transform returns exactly the non zero coefficients `Σ_x f(x) (-1)^{x·u}` with their
features, in the order of the integers the features encode. -/
theorem walshTransform_terms [DecidableEq K] (fn : Fn K) (f : BV → K) (hn : 0 < fn.size) (hn' : fn.size < 31)
    (hf : ∀ x : BV, x.length = fn.size → fn.eval x = ok (f x)) :
    ∃ terms, computeWalshTransform fn = ok terms ∧
      (∀ u c, (⟨u, c⟩ : WalshTerm K) ∈ terms ↔
        u.length = fn.size ∧ c ≠ 0 ∧ c = walshCoefficient fn.size f u) ∧
      (terms.map (fun t => bitsToNat t.feature)).Pairwise (· < ·) := by
  unfold computeWalshTransform
  rw [walshCoefficients_eq fn f hn hn' hf, ok_bind, walshTerms_table _ hn']
  refine ⟨_, rfl, ?_, ?_⟩
  · intro u c
    simp only [List.mem_map, List.mem_filter, mem_allBV, WalshTerm.mk.injEq, decide_eq_true_eq]
    constructor
    · rintro ⟨v, ⟨h1, h2⟩, rfl, rfl⟩
      exact ⟨h1, h2, rfl⟩
    · rintro ⟨h1, h2, rfl⟩
      exact ⟨u, ⟨h1, h2⟩, rfl, rfl⟩
  · rw [List.map_map]
    have hp : ((allBV fn.size).map bitsToNat).Pairwise (· < ·) := by
      rw [allBV_map_bitsToNat]; exact List.pairwise_lt_range
    rw [List.pairwise_map] at hp ⊢
    exact hp.filter _

/-- C34: the Walsh expansion made of the terms of the Walsh transform of a function is the function, up to
the factor `2^n` that the library leaves out. -/
theorem walshTransform_expansion [DecidableEq K] (fn : Fn K) (f : BV → K) (hn : 0 < fn.size)
    (hn' : fn.size < 31) (hf : ∀ x : BV, x.length = fn.size → fn.eval x = ok (f x)) :
    ∃ terms, computeWalshTransform fn = ok terms ∧
      ∀ x : BV, x.length = fn.size → walshExpansionEval terms x = ok (2 ^ fn.size * f x) := by
  unfold computeWalshTransform
  rw [walshCoefficients_eq fn f hn hn' hf, ok_bind, walshTerms_table _ hn']
  refine ⟨_, rfl, ?_⟩
  intro x hx
  rw [walshExpansionEval_eq]
  · rw [← walsh_inversion fn.size f x hx, List.map_map]
    congr 1
    exact sum_filter_ne_zero (allBV fn.size) (walshCoefficient fn.size f) (walshSign K x)
  · intro t ht
    simp only [List.mem_map, List.mem_filter, mem_allBV] at ht
    obtain ⟨u, ⟨h1, -⟩, rfl⟩ := ht
    exact h1.trans hx.symm

/-- C34: the fast transform returns the same terms as the plain one. -/
theorem fastWalshTransform_eq [DecidableEq K] (fn : Fn K) (f : BV → K) (hn : 0 < fn.size)
    (hn' : fn.size < 31) (hf : ∀ x : BV, x.length = fn.size → fn.eval x = ok (f x)) :
    computeFastWalshTransform fn = computeWalshTransform fn := by
  unfold computeWalshTransform computeFastWalshTransform
  rw [walshCoefficients_eq fn f hn hn' hf, fastWalshCoefficients_eq fn f hn hn' hf]

/-- A function on two bits. -/
def smallFn : Fn Int := Fn.ofEval 2 (fun x => ok ((x.map (fun b => if b then (3 : Int) else 1)).sum))

example : computeWalshTransform smallFn = ok [⟨[false, false], 16⟩, ⟨[true, false], -4⟩, ⟨[false, true], -4⟩] ∧
    computeFastWalshTransform smallFn = computeWalshTransform smallFn := by decide +kernel

/-- C34: `WalshExpansion2` is the Walsh expansion of order two with the given linear and quadratic
coefficients. -/
theorem walshExpansion2_value (linear : List K) (quadratic : List (List K)) (n : Nat) (s : BV)
    (h1 : linear.length = n) (h2 : quadratic.length = n) (hs : s.length = n)
    (h3 : ∀ (i : Nat) (line : List K), quadratic[i]? = some line → line.length = i) :
    walshExpansion2Eval linear quadratic s = ok (
      ∑ i ∈ Finset.range n, entry linear i * spin K s i +
      ∑ i ∈ Finset.range n, ∑ j ∈ Finset.range i, gridEntry quadratic i j * spin K s i * spin K s j) := by
  unfold walshExpansion2Eval
  rw [assert_pos (by simp [h1, hs]), ok_bind, assert_pos (by simp [h2, hs]), ok_bind, h1, h2]
  rw [forRange_sum_range n _ (fun i => entry linear i * spin K s i), ok_bind, zero_add,
    forRange_sum_range n _ (fun i => ∑ j ∈ Finset.range i, gridEntry quadratic i j * spin K s i * spin K s j)]
  · intro i hi r
    have hi' : i < quadratic.length := by omega
    have hline := h3 i _ (List.getElem?_eq_getElem hi')
    rw [vget_eq hi', ok_bind, vget_bitOf s i (by omega), ok_bind]
    rw [forRange_sum_range i _ (fun j => gridEntry quadratic i j * spin K s i * spin K s j)]
    intro j hj r
    rw [vget_bitOf s j (by omega), ok_bind, vget_entry _ _ (by omega), ok_bind, spin_mul]
    have : gridEntry quadratic i j = entry quadratic[i] j := by
      unfold gridEntry; rw [List.getElem?_eq_getElem hi']; rfl
    rw [this]
    cases bitOf s i <;> cases bitOf s j <;> simp [sub_eq_add_neg]
  · intro i hi r
    rw [vget_bitOf s i (by omega), ok_bind, vget_entry _ _ (by omega), ok_bind, mul_spin]
    cases bitOf s i <;> simp [sub_eq_add_neg]

example : walshExpansion2Eval [1, 2, (4 : Int)] [[], [8], [16, 32]] [true, false, true] = ok (-27) := by decide

end Hnco
