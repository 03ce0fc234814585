import Verif.Algorithm.LambdaLambda
import Verif.Algorithm.EvolutionaryProps
import Verif.Algorithm.HillClimbingProps

/-! # C53 and C50: the (1+(lambda, lambda)) genetic algorithm -/

namespace Hnco

open Outcome

variable {K : Type}

/-! ## Runs without undefined behaviour -/

namespace Alg

variable {S α β : Type}

/-- Whatever the draws, a run that ends without undefined behaviour has a result and a state which satisfy `Q` if it
returns normally, and a state which satisfies `E` if it throws. -/
def HoldsOk (m : Alg S α) (s : S) (Q : α → S → Prop) (E : S → Prop) : Prop :=
  Sim.PostOk (m s) (fun r => match r.1 with
    | .ok a => Q a r.2
    | .error _ => E r.2)

theorem Holds.toOk {m : Alg S α} {s : S} {Q : α → S → Prop} {E : S → Prop} (h : Holds m s Q E) : HoldsOk m s Q E :=
  Sim.Post.toOk h

theorem HoldsOk.pure {a : α} {s : S} {Q : α → S → Prop} {E : S → Prop} (h : Q a s) :
    HoldsOk (pure a : Alg S α) s Q E := (Holds.pure h).toOk

theorem HoldsOk.bind {m : Alg S α} {f : α → Alg S β} {s : S} {P : α → S → Prop} {Q : β → S → Prop} {E : S → Prop}
    (h : HoldsOk m s P E) (hf : ∀ a t, P a t → HoldsOk (f a) t Q E) : HoldsOk (m >>= f) s Q E := by
  refine Sim.PostOk.bind h ?_
  rintro ⟨r, t⟩ hr
  cases r with
  | ok a => exact hf a t hr
  | error e => exact Sim.PostOk.pure hr

theorem HoldsOk.mono {m : Alg S α} {s : S} {P Q : α → S → Prop} {E F : S → Prop} (h : HoldsOk m s P E)
    (h1 : ∀ a t, P a t → Q a t) (h2 : ∀ t, E t → F t) : HoldsOk m s Q F := by
  refine Sim.PostOk.mono h ?_
  rintro ⟨r, t⟩ hr
  cases r with
  | ok a => exact h1 a t hr
  | error e => exact h2 t hr

theorem HoldsOk.get_bind {f : S → Alg S β} {s : S} {Q : β → S → Prop} {E : S → Prop} (h : HoldsOk (f s) s Q E) :
    HoldsOk (Alg.get >>= f) s Q E :=
  HoldsOk.bind (P := fun a t => a = s ∧ t = s) (Holds.get ⟨rfl, rfl⟩).toOk (by rintro _ _ ⟨rfl, rfl⟩; exact h)

theorem HoldsOk.modify {f : S → S} {s : S} {Q : Unit → S → Prop} {E : S → Prop} (h : Q () (f s)) :
    HoldsOk (modify f) s Q E := (Holds.modify h).toOk

theorem HoldsOk.lift_bind {o : Outcome α} {a : α} {f : α → Alg S β} {s : S} {Q : β → S → Prop} {E : S → Prop}
    (ho : o = .ok a) (h : HoldsOk (f a) s Q E) : HoldsOk (Alg.lift o >>= f) s Q E :=
  HoldsOk.bind (P := fun b t => b = a ∧ t = s) (Holds.lift ⟨a, ho, rfl, rfl⟩).toOk (by rintro _ _ ⟨rfl, rfl⟩; exact h)

/-- A random computation which may have undefined behaviour, but does not throw. -/
theorem HoldsOk.sim_bind {m : Sim α} {P : α → Prop} {f : α → Alg S β} {s : S} {Q : β → S → Prop} {E : S → Prop}
    (hm : Sim.PostOk m P) (ht : ∀ ds e, m ds ≠ .throw e) (h : ∀ a, P a → HoldsOk (f a) s Q E) :
    HoldsOk (Alg.sim m >>= f) s Q E := by
  refine HoldsOk.bind (P := fun a t => P a ∧ t = s) ?_ (by rintro a _ ⟨ha, rfl⟩; exact h a ha)
  intro ds r rest hr
  simp only [Alg.sim] at hr
  cases e : m ds with
  | ok a rest' =>
    rw [e] at hr
    cases hr
    exact ⟨hm ds a _ e, rfl⟩
  | throw e' => exact absurd e (ht ds e')
  | ub => rw [e] at hr; cases hr
  | out => rw [e] at hr; cases hr

end Alg

theorem boundedLoop_holdsOk {σ : Type} {iterate : Alg (AlgState K σ) Unit} (I E : AlgState K σ → Prop)
    (h : ∀ s, I s → Alg.HoldsOk iterate s (fun _ => I) E) :
    ∀ k s, I s → Alg.HoldsOk (boundedLoop iterate k) s (fun _ => I) E
  | 0, _, hs => Alg.HoldsOk.pure hs
  | k + 1, s, hs => by
    unfold boundedLoop
    refine Alg.HoldsOk.get_bind ?_
    split
    · exact Alg.HoldsOk.pure hs
    · exact (h s hs).bind (fun _ t ht => boundedLoop_holdsOk I E h k t ht)

theorem unboundedLoop_holdsOk {σ : Type} {iterate : Alg (AlgState K σ) Unit} (I E : AlgState K σ → Prop)
    (h : ∀ s, I s → Alg.HoldsOk iterate s (fun _ => I) E) :
    ∀ k s, I s → Alg.HoldsOk (unboundedLoop iterate k) s (fun _ => I) E
  | 0, _, hs => by
    intro ds r rest hr
    cases hr
  | k + 1, s, hs => by
    unfold unboundedLoop
    refine Alg.HoldsOk.get_bind ?_
    split
    · exact Alg.HoldsOk.pure hs
    · exact (h s hs).bind (fun _ t ht => unboundedLoop_holdsOk I E h k t ht)

theorem algLoop_holdsOk {σ : Type} {init iterate : Alg (AlgState K σ) Unit} (I E : AlgState K σ → Prop)
    (h : ∀ s, I s → Alg.HoldsOk iterate s (fun _ => I) E) {s : AlgState K σ}
    (h0 : Alg.HoldsOk init s (fun _ t => I { t with lastIteration := false }) E) (numIterations : Int) (fuel : Nat) :
    Alg.HoldsOk (algLoop init iterate numIterations fuel) s (fun _ => I) E := by
  unfold algLoop
  refine h0.bind (fun _ t ht => ?_)
  refine Alg.HoldsOk.bind (P := fun _ u => u = { t with lastIteration := false }) (Alg.HoldsOk.modify rfl) ?_
  rintro _ _ rfl
  split
  · exact boundedLoop_holdsOk I E h _ _ ht
  · exact unboundedLoop_holdsOk I E h _ _ ht

/-! ## Counting ties -/

theorem sorted_ties [LinearOrder K] {v : K} : ∀ l : List K, l.Pairwise (fun a b => b ≤ a) → (∀ w ∈ l, w ≤ v) →
    ∃ rest, l = List.replicate (l.count v) v ++ rest ∧ ∀ w ∈ rest, w ≠ v
  | [], _, _ => ⟨[], rfl, (by intro w hw; cases hw)⟩
  | a :: l, hs, hle => by
    rw [List.pairwise_cons] at hs
    by_cases ha : a = v
    · subst ha
      obtain ⟨rest, h1, h2⟩ := sorted_ties l hs.2 (fun w hw => hle w (List.mem_cons_of_mem _ hw))
      refine ⟨rest, ?_, h2⟩
      rw [List.count_cons_self, List.replicate_succ, List.cons_append, ← h1]
    · have hlt : a < v := lt_of_le_of_ne (hle a List.mem_cons_self) ha
      have hne : ∀ w ∈ a :: l, w ≠ v := by
        intro w hw
        rcases List.mem_cons.mp hw with rfl | hw
        · exact ha
        · exact ne_of_lt (lt_of_le_of_lt (hs.1 w hw) hlt)
      refine ⟨a :: l, ?_, hne⟩
      rw [List.count_eq_zero.mpr (fun h => hne v h rfl)]
      rfl

theorem bestValue_ub {p : Pop K} {i : Nat} (h : p.perm.length ≤ i) : p.bestValue i = ub := by
  unfold Pop.bestValue
  rw [assert_neg (by rw [decide_eq_false_iff_not]; omega)]
  rfl

/-- The values by ranks. -/
theorem ranked_values [LinearOrder K] {size n : Nat} {p : Pop K} (hp : p.Valid size n) (hs : p.Sorted) {v : K}
    (hv : p.bestValue 0 = ok v) : ∃ rest, p.ranked.map Prod.snd = List.replicate (p.values.count v) v ++ rest ∧
      ∀ w ∈ rest, w ≠ v := by
  have hcount : (p.ranked.map Prod.snd).Perm p.values := by
    refine (hp.ranked_perm.map Prod.snd).trans (List.Perm.of_eq ?_)
    unfold Pop.individuals
    rw [List.map_snd_zip (by rw [hp.bvs, hp.values])]
  rw [← hcount.count_eq]
  apply sorted_ties
  · rw [List.pairwise_iff_getElem]
    intro i j hi hj hij
    simp only [List.length_map] at hi hj
    simp only [List.getElem_map]
    exact hs i j _ _ (le_of_lt hij) (hp.rankValue.mpr ⟨_, List.getElem?_eq_getElem hi⟩)
      (hp.rankValue.mpr ⟨_, List.getElem?_eq_getElem hj⟩)
  · intro w hw
    obtain ⟨c, hc, rfl⟩ := List.mem_map.mp hw
    obtain ⟨i, hi, rfl⟩ := List.getElem_of_mem hc
    have h0 : 0 < size := by rw [← hp.ranked_length]; omega
    obtain ⟨k, x, v', hk, _, _, _, e4, _, e6⟩ := hp.ranked_read h0
    rw [hv] at e6
    cases e6
    exact hs 0 i _ _ (Nat.zero_le _) (hp.rankValue.mpr ⟨x, e4⟩) (hp.rankValue.mpr ⟨_, List.getElem?_eq_getElem hi⟩)

/-- The loop does not depend on the bound on its turns. -/
theorem countTies_step [DecidableEq K] (p : Pop K) (value : K) (n : Nat) : countTies p value n =
    match p.bestValue n with
    | .ok v => if v = value ∧ n < p.size then countTies p value (n + 1) else ok n
    | .throw e => .throw e
    | .ub => .ub := by
  unfold countTies
  rw [tieLoop.eq_def]
  by_cases h : n < p.size
  · rw [show p.size - n = (p.size - (n + 1)) + 1 by omega]
    dsimp only
    cases p.bestValue n <;> rfl
  · simp only [h, and_false, if_false]
    cases p.bestValue n <;> rfl

theorem countTies_from [LinearOrder K] {size n : Nat} {p : Pop K} (hp : p.Valid size n) (hs : p.Sorted) {v : K}
    (hv : p.bestValue 0 = ok v) : ∀ d i, i + d = p.values.count v →
      countTies p v i = if p.values.count v < size then ok (p.values.count v) else ub := by
  intro d
  obtain ⟨rest, hr1, hr2⟩ := ranked_values hp hs hv
  have hlen : p.values.count v + rest.length = size := by
    have := congrArg List.length hr1
    simpa [hp.ranked_length] using this.symm
  have hread : ∀ i w, (p.ranked.map Prod.snd)[i]? = some w → p.bestValue i = ok w := by
    intro i w hw
    rw [List.getElem?_map, Option.map_eq_some_iff] at hw
    obtain ⟨c, hc, rfl⟩ := hw
    have hi : i < size := by
      rw [← hp.ranked_length]
      exact (List.getElem?_eq_some_iff.mp hc).1
    obtain ⟨k, x, v', hk, _, _, _, e4, _, e6⟩ := hp.ranked_read hi
    rw [hc] at e4
    cases e4
    exact e6
  induction d with
  | zero =>
    intro i hi
    rw [countTies_step]
    by_cases h : p.values.count v < size
    · rw [if_pos h]
      have h0 : 0 < rest.length := by omega
      rw [hread i rest[0] (by
        rw [hr1, List.getElem?_append_right (by rw [List.length_replicate]; exact le_of_eq hi.symm), List.length_replicate]; rw [show i - p.values.count v = 0 by omega]; exact List.getElem?_eq_getElem h0)]
      dsimp only
      rw [if_neg (fun hc => hr2 _ (List.getElem_mem h0) hc.1)]
      congr 1
    · rw [if_neg h, bestValue_ub (i := i) (by rw [hp.perm_length]; omega)]
  | succ d ih =>
    intro i hi
    rw [countTies_step]
    rw [hread i v (by
        rw [hr1, List.getElem?_append_left (by rw [List.length_replicate]; exact Nat.lt_of_lt_of_eq (Nat.lt_add_of_pos_right d.succ_pos) hi), List.getElem?_replicate, if_pos (by omega)])]
    dsimp only
    rw [if_pos ⟨rfl, by unfold Pop.size; rw [hp.bvs]; omega⟩]
    exact ih (i + 1) (by omega)

/-- C53: if some offspring is worse than the best one, then the loop counts the offsprings tied for best. -/
theorem countTies_count [LinearOrder K] {size n : Nat} {p : Pop K} (hp : p.Valid size n) (hs : p.Sorted) {v : K}
    (hv : p.bestValue 0 = ok v) (hw : ∃ w ∈ p.values, w ≠ v) : countTies p v 0 = ok (p.values.count v) := by
  rw [countTies_from hp hs hv _ 0 (Nat.zero_add _), if_pos]
  obtain ⟨w, hw, hne⟩ := hw
  rw [← hp.values]
  refine lt_of_le_of_ne List.count_le_length (fun h => hne ?_)
  exact (List.count_eq_length.mp h w hw).symm

/-- C53 (negative part): if all offsprings tie, then the loop reads past the end of the population. -/
theorem countTies_all_tie [LinearOrder K] {size n : Nat} {p : Pop K} (hp : p.Valid size n) (hs : p.Sorted) {v : K}
    (hv : p.bestValue 0 = ok v) (hw : ∀ w ∈ p.values, w = v) : countTies p v 0 = ub := by
  rw [countTies_from hp hs hv _ 0 (Nat.zero_add _), if_neg]
  rw [← hp.values, List.count_eq_length.mpr (fun w h => (hw w h).symm)]
  exact lt_irrefl _

/-- C53: the undefined behaviour occurs exactly when all offsprings tie. -/
theorem countTies_undefined_iff [LinearOrder K] {size n : Nat} {p : Pop K} (hp : p.Valid size n) (hs : p.Sorted) {v : K}
    (hv : p.bestValue 0 = ok v) : countTies p v 0 = ub ↔ ∀ w ∈ p.values, w = v := by
  constructor
  · intro h
    by_contra hc
    push Not at hc
    rw [countTies_count hp hs hv hc] at h
    cases h
  · exact countTies_all_tie hp hs hv

/-! ## The algorithm -/

/-- The data of the algorithm with `lam` offsprings of `n` bits. -/
structure LambdaData.Valid (n lam : Nat) (d : LambdaData K) : Prop where
  lam_pos : 0 < lam
  offsprings : d.offsprings.Valid lam n
  mutation : d.mutation.Valid (.hammingSphere 1)
  bits : d.mutation.n = n
  parent : d.parent.length = n

/-- The constructor makes valid data. -/
theorem lambdaNew_valid [Zero K] {n lam : Int} {d : LambdaData K} (h : lambdaNew n lam = ok d) :
    d.Valid n.toNat lam.toNat := by
  unfold lambdaNew at h
  obtain ⟨p, h1, h⟩ := bind_eq_ok.mp h
  obtain ⟨b, h2, h⟩ := bind_eq_ok.mp h
  obtain ⟨_, h3, h⟩ := bind_eq_ok.mp h
  obtain ⟨_, h4, h⟩ := bind_eq_ok.mp h
  obtain ⟨_, h5, h⟩ := bind_eq_ok.mp h
  cases h
  obtain ⟨g1, g2, g3⟩ := popNew_valid h1
  obtain ⟨b', e1, e3, e2, _⟩ := (construct_ready (.hammingSphere 1) n.toNat).1 ⟨by omega, by omega⟩
  rw [h2] at e1
  cases e1
  exact ⟨by omega, g3, e2.toValid, e3, List.length_replicate⟩

theorem sphere_map_post {s : Nbh} (hs : s.Valid (.hammingSphere 1)) {r : Nat} (hr : r ≤ s.n) {input output : BV}
    (hb : input.length = s.n) (ho : output.length = s.n) :
    Sim.Post (s.map (.hammingSphere r) input output) (fun q => q.1.Valid (.hammingSphere 1) ∧ q.1.n = s.n ∧
      q.2.length = s.n ∧ ∃ l : List Nat, l.length = r ∧ l.Pairwise (· < ·) ∧ FlippedAt input l q.2) := by
  have hn : 0 < s.n := Nat.lt_of_lt_of_le (Nat.zero_lt_one) hs.fits.2
  have hsample : Sim.Post ((Sampler.hammingSphere r).sampleBits s)
      (fun l => l.Pairwise (· < ·) ∧ (∀ i ∈ l, i < s.n) ∧ l.length = r) := by
    unfold Sampler.sampleBits
    dsimp only
    split
    · exact rejectionSampling_post hn
    · have := bernoulliTrials_post (k := r) (s := s) (by rw [hs.candidate]; exact hr)
      rwa [hs.candidate] at this
  unfold Nbh.map
  refine (Sim.Post.assert (by simp only [beq_iff_eq]; rw [hb, hs.origin])).bind (fun _ _ => ?_)
  refine (Sim.Post.assert (by simp only [beq_iff_eq]; rw [ho, hs.origin])).bind (fun _ _ => ?_)
  rw [copy_ok (show output.length = input.length by omega)]
  refine Sim.Post.lift_bind rfl ?_
  refine hsample.bind ?_
  rintro l ⟨h1, h2, h3⟩
  obtain ⟨y, hy, hy1, hy2⟩ := bvFlipSparse_exact input l h1 (by rw [hb]; exact h2)
  exact Sim.Post.lift_bind hy (Sim.Post.pure ⟨⟨hs.fits, hs.origin, hs.candidate, by intro h; cases h⟩, rfl,
    by rw [hy1, hb], l, h3, h1, hy1, hy2⟩)

theorem lambdaMutate_bind {s : AlgState K (LambdaData K)} {n lam : Nat} (hv : s.data.Valid n lam)
    (hs : s.solution.1.length = n) {β : Type} {f : Unit → Alg (AlgState K (LambdaData K)) β}
    {Q : β → AlgState K (LambdaData K) → Prop} {E : AlgState K (LambdaData K) → Prop}
    (hQ : ∀ m p, LambdaData.Valid n lam { s.data with mutation := m, offsprings := p } →
      Alg.HoldsOk (f ()) { s with data := { s.data with mutation := m, offsprings := p } } Q E) :
    Alg.HoldsOk (lambdaMutate >>= f) s Q E := by
  refine Alg.HoldsOk.bind (P := fun _ t => ∃ m p, LambdaData.Valid n lam { s.data with mutation := m, offsprings := p } ∧
    t = { s with data := { s.data with mutation := m, offsprings := p } }) (Alg.Holds.toOk ?_) ?_
  · unfold lambdaMutate Pop.size
    refine Alg.Holds.get_bind (Alg.Holds.sim_bind (Sim.Post.uniformInt (Nat.zero_le _)) ?_)
    rintro radius ⟨_, hrad⟩
    rw [hv.parent] at hrad
    refine Alg.Holds.sim_bind (Sim.Post.forRange (I := fun _ (r : Nbh × Pop K) =>
      r.1.Valid (.hammingSphere 1) ∧ r.1.n = n ∧ r.2.Valid lam n) (Nat.zero_le _)
      ⟨hv.mutation, hv.bits, hv.offsprings⟩ ?_) ?_
    · rintro i r _ hi ⟨h1, h2, h3⟩
      have hil : i < r.2.bvs.length := by rw [h3.bvs, ← hv.offsprings.bvs]; exact hi
      unfold sphereOffspring
      refine Sim.Post.lift_bind (vget_eq hil) ?_
      refine (sphere_map_post h1 (by omega) (by rw [hs, h2]) (by rw [h3.bits _ (List.getElem_mem hil), h2])).bind ?_
      rintro ⟨b, y⟩ ⟨g1, g2, g3, _⟩
      dsimp only at g1 g2 g3 ⊢
      exact Sim.Post.lift_bind (vset_eq hil) (Sim.Post.pure ⟨g1, g2.trans h2, h3.setBv i (by rw [g3, h2])⟩)
    · rintro r ⟨h1, h2, h3⟩
      exact Alg.Holds.modify ⟨r.1, r.2, ⟨hv.lam_pos, h3, h1, h2, hv.parent⟩, rfl⟩
  · rintro _ _ ⟨m, p, h, rfl⟩
    exact hQ m p h

/-- Evaluation and sorting of the offsprings. -/
theorem evaluateSort_bind [LinearOrder K] {env : Env K} {n lam : Nat} {val : BV → K} (henv : env.Computes n val)
    {s : AlgState K (LambdaData K)} {p : Pop K} (hg : s.data.offsprings = p) (hp : p.Valid lam n)
    {β : Type} {f : Unit → Alg (AlgState K (LambdaData K)) β}
    {Q : β → AlgState K (LambdaData K) → Prop} {E : AlgState K (LambdaData K) → Prop}
    (hE : ∀ k values, k < lam → E { s with
      calls := s.calls ++ evaluated val (p.bvs.take k)
      data := { s.data with offsprings := { p with values := values } } })
    (hQ : ∀ w : Pop K, w.Valid lam n → w.individuals = evaluated val p.bvs → w.Sorted →
      Alg.HoldsOk (f ()) { s with
        calls := s.calls ++ evaluated val p.bvs
        data := { s.data with offsprings := w } } Q E) :
    Alg.HoldsOk (popEvaluate env (lambdaLens K) >>= fun _ => popSort (lambdaLens K) >>= f) s Q E := by
  subst hg
  refine Alg.HoldsOk.bind (P := fun _ u => u = { s with
      calls := s.calls ++ evaluated val s.data.offsprings.bvs
      data := { s.data with
        offsprings := { s.data.offsprings with values := s.data.offsprings.bvs.map val } } })
    (popEvaluate_holds (L := lambdaLens K) henv rfl hp rfl (fun k values hk _ => hE k values hk)).toOk ?_
  rintro _ _ rfl
  have hp' := hp.withValues (values := s.data.offsprings.bvs.map val) (by simp [hp.bvs])
  refine Alg.HoldsOk.bind (P := fun _ u => ∃ w : Pop K, w.Valid lam n ∧
      w.individuals = evaluated val s.data.offsprings.bvs ∧ w.Sorted ∧ u = { s with
        calls := s.calls ++ evaluated val s.data.offsprings.bvs
        data := { s.data with offsprings := w } })
    (popSort_holds (L := lambdaLens K) (p := { s.data.offsprings with values := s.data.offsprings.bvs.map val }) rfl hp'
      (fun w h1 h2 h3 h4 => ⟨w, h1, by rw [h3, evaluated_individuals], h4, rfl⟩)).toOk ?_
  rintro _ _ ⟨w, h1, h2, h3, rfl⟩
  exact hQ w h1 h2 h3

theorem chooseBest_ok [LinearOrder K] {size n : Nat} {p : Pop K} (hp : p.Valid size n) (hs : p.Sorted) {v : K}
    (hv : p.bestValue 0 = ok v) :
    Sim.PostOk (chooseBest p v) (fun x => (x, v) ∈ p.individuals ∧ ∃ w ∈ p.values, w ≠ v) ∧
      ∀ ds e, chooseBest p v ds ≠ .throw e := by
  by_cases hw : ∃ w ∈ p.values, w ≠ v
  · have hlt : p.values.count v < size := by
      obtain ⟨w, hw, hne⟩ := hw
      rw [← hp.values]
      exact lt_of_le_of_ne List.count_le_length (fun h => hne (List.count_eq_length.mp h w hw).symm)
    have hpost : Sim.Post (chooseBest p v) (fun x => (x, v) ∈ p.individuals ∧ ∃ w ∈ p.values, w ≠ v) := by
      unfold chooseBest
      refine Sim.Post.lift_bind (countTies_count hp hs hv hw) ?_
      have h0 : 0 < size := by omega
      have hpos : 0 < p.values.count v := by
        obtain ⟨k, x, v', hk, _, _, e3, _, _, e6⟩ := hp.ranked_read h0
        rw [hv] at e6
        cases e6
        exact List.count_pos_iff.mpr (List.mem_of_getElem? e3)
      refine (Sim.Post.assert (by rw [decide_eq_true_eq]; exact hpos)).bind (fun _ _ => ?_)
      refine (Sim.Post.uniformInt (Nat.zero_le _)).bind ?_
      rintro i ⟨_, hi⟩
      have hi' : i < p.values.count v := by omega
      obtain ⟨k, x, v', hk, e1, e2, e3, e4, e5, e6⟩ := hp.ranked_read (i := i) (by omega)
      obtain ⟨rest, hr1, hr2⟩ := ranked_values hp hs hv
      have hvv : v' = v := by
        have h1 : (p.ranked.map Prod.snd)[i]? = some v' := by rw [List.getElem?_map, e4]; rfl
        rw [hr1, List.getElem?_append_left (by simp; exact hi')] at h1
        simp only [List.getElem?_replicate, hi', if_true, Option.some.injEq] at h1
        exact h1.symm
      subst hvv
      refine Sim.Post.lift ⟨x, e5, ?_, hw⟩
      exact List.mem_of_getElem? (individuals_getElem?.mpr ⟨e2, e3⟩)
    refine ⟨hpost.toOk, ?_⟩
    intro ds e h
    have := hpost ds
    rw [h] at this
    exact this
  · push Not at hw
    have hub := countTies_all_tie hp hs hv hw
    have : ∀ ds, chooseBest p v ds = .ub := by
      intro ds
      unfold chooseBest
      rw [hub]
      rfl
    refine ⟨?_, ?_⟩
    · intro ds a rest h
      rw [this ds] at h
      cases h
    · intro ds e h
      rw [this ds] at h
      cases h

/-- After complete iterations: the evaluated vectors are the first one, then for every iteration `lam` mutants and `lam`
crossovers; the solution is an evaluated vector, at least as good as the first one and all crossovers. -/
structure LambdaInv [LinearOrder K] (n lam : Nat) (val : BV → K) (s : AlgState K (LambdaData K)) : Prop where
  valid : s.data.Valid n lam
  true_calls : TrueCalls n val s.calls
  solution : s.solution ∈ s.calls
  blocks : ∃ m, s.calls.length = 1 + 2 * lam * m
  best : ∀ (j : Nat) c, s.calls[j]? = some c → (j = 0 ∨ lam ≤ (j - 1) % (2 * lam)) → c.2 ≤ s.solution.2

/-- When an evaluation is interrupted. -/
def LambdaStop (n : Nat) (val : BV → K) (s : AlgState K (LambdaData K)) : Prop :=
  TrueCalls n val s.calls ∧ (s.calls = [] ∨ s.solution ∈ s.calls)

theorem evaluated_length (val : BV → K) (l : List BV) : (evaluated val l).length = l.length := by simp [evaluated]

/-- One iteration. -/
theorem lambdaIterate_holdsOk [LinearOrder K] {env : Env K} {n lam : Nat} {val : BV → K} (henv : env.Computes n val)
    (s : AlgState K (LambdaData K)) (hs : LambdaInv n lam val s) :
    Alg.HoldsOk (lambdaIterate env) s
      (fun _ t => LambdaInv n lam val t ∧ s.solution.2 ≤ t.solution.2 ∧ lam ≠ 1)
      (fun t => LambdaStop n val t ∧ t.solution = s.solution) := by
  have hsol : s.solution.1.length = n := (hs.true_calls _ hs.solution).1
  unfold lambdaIterate
  refine lambdaMutate_bind hs.valid hsol (fun m p hmp => ?_)
  have hp : p.Valid lam n := hmp.offsprings
  refine evaluateSort_bind (p := p) henv rfl hp ?_ (fun w h1 h2 h3 => ?_)
  · intro k values hk
    exact ⟨⟨hs.true_calls.append (evaluated_true (fun x hx => hp.bits x (List.mem_of_mem_take hx))),
      Or.inr (List.mem_append_left _ hs.solution)⟩, rfl⟩
  obtain ⟨x, v, e1, e2, e3, e4⟩ := Pop.Sorted.first h1 h3 hmp.lam_pos
  -- second parent
  refine Alg.HoldsOk.bind (P := fun _ u => ∃ y : BV, y.length = n ∧ lam ≠ 1 ∧ u = { s with
      calls := s.calls ++ evaluated val p.bvs
      data := ⟨w, m, y⟩ }) ?_ ?_
  · unfold lambdaParent
    refine Alg.HoldsOk.get_bind (Alg.HoldsOk.lift_bind e2 ?_)
    obtain ⟨g1, g2⟩ := chooseBest_ok h1 h3 e2
    refine Alg.HoldsOk.sim_bind g1 g2 ?_
    rintro y ⟨hy, u, hu, hne⟩
    refine Alg.HoldsOk.modify ⟨y, ?_, ?_, rfl⟩
    · exact h1.bits y (List.of_mem_zip hy).1
    · rintro rfl
      have h5 : w.values.length = 1 := h1.values
      have h6 := (List.of_mem_zip hy).2
      obtain ⟨a, ha⟩ := List.length_eq_one_iff.mp h5
      rw [ha, List.mem_singleton] at hu h6
      exact hne (hu.trans h6.symm)
  rintro _ _ ⟨y, hy, hlam, rfl⟩
  -- crossover
  refine Alg.HoldsOk.bind (P := fun _ u => ∃ z : Pop K, z.Valid lam n ∧ u = { s with
      calls := s.calls ++ evaluated val p.bvs
      data := ⟨z, m, y⟩ }) (Alg.Holds.toOk ?_) ?_
  · unfold lambdaRecombine Pop.size
    refine Alg.Holds.get_bind (Alg.Holds.sim_bind (Sim.Post.forRange (I := fun _ (r : Pop K) => r.Valid lam n)
      (Nat.zero_le _) h1 ?_) (fun z hz => Alg.Holds.modify ⟨z, hz, rfl⟩))
    intro i r _ hi hr
    have hil : i < r.bvs.length := by rw [hr.bvs, ← h1.bvs]; exact hi
    have hrl : r.bvs[i].length = n := hr.bits _ (List.getElem_mem hil)
    unfold biasedOffspring
    refine Sim.Post.lift_bind (vget_eq hil) ?_
    refine (biasedRecombine_mixes (by rw [hrl]; exact hsol.symm) (by rw [hrl]; exact hy.symm)).bind (fun a ha => ?_)
    exact Sim.Post.lift_bind (vset_eq hil) (Sim.Post.pure (hr.setBv i (ha.1.trans hsol)))
  rintro _ _ ⟨z, hz, rfl⟩
  refine evaluateSort_bind (p := z) henv rfl hz ?_ (fun w' h1' h2' h3' => ?_)
  · intro k values hk
    exact ⟨⟨(hs.true_calls.append (evaluated_true hp.bits)).append
      (evaluated_true (fun x hx => hz.bits x (List.mem_of_mem_take hx))),
      Or.inr (List.mem_append_left _ (List.mem_append_left _ hs.solution))⟩, rfl⟩
  obtain ⟨x', v', e1', e2', e3', e4'⟩ := Pop.Sorted.first h1' h3' hmp.lam_pos
  have htrue := (hs.true_calls.append (evaluated_true hp.bits)).append (evaluated_true hz.bits)
  obtain ⟨mm, hmm⟩ := hs.blocks
  have hl1 : (evaluated val p.bvs).length = lam := by rw [evaluated_length, hp.bvs]
  have hl2 : (evaluated val z.bvs).length = lam := by rw [evaluated_length, hz.bvs]
  have hblocks : (s.calls ++ evaluated val p.bvs ++ evaluated val z.bvs).length = 1 + 2 * lam * (mm + 1) := by
    rw [List.length_append, List.length_append, hmm, hl1, hl2, Nat.mul_add]
    omega
  have hlampos := hmp.lam_pos
  have hbest : ∀ q : K, s.solution.2 ≤ q → (∀ c ∈ evaluated val z.bvs, c.2 ≤ q) → ∀ (j : Nat) c,
      (s.calls ++ evaluated val p.bvs ++ evaluated val z.bvs)[j]? = some c →
      (j = 0 ∨ lam ≤ (j - 1) % (2 * lam)) → c.2 ≤ q := by
    intro q hq1 hq2 j c hj hcond
    by_cases h : j < s.calls.length
    · rw [List.append_assoc, List.getElem?_append_left h] at hj
      exact le_trans (hs.best j c hj hcond) hq1
    · by_cases h' : j < s.calls.length + lam
      · exfalso
        have hj0 : j - 1 = 2 * lam * mm + (j - s.calls.length) := by omega
        rcases hcond with rfl | hcond
        · omega
        · rw [hj0, Nat.mul_add_mod, Nat.mod_eq_of_lt (by omega)] at hcond
          omega
      · rw [List.getElem?_append_right (by rw [List.length_append, hl1]; omega)] at hj
        exact hq2 c (List.mem_of_getElem? hj)
  unfold lambdaSelect
  refine Alg.HoldsOk.get_bind (Alg.HoldsOk.lift_bind e2' ?_)
  split
  · rename_i hge
    obtain ⟨g1, g2⟩ := chooseBest_ok h1' h3' e2'
    refine Alg.HoldsOk.sim_bind g1 g2 ?_
    rintro a ⟨ha, _⟩
    refine Alg.HoldsOk.modify ⟨⟨⟨hmp.lam_pos, h1', hmp.mutation, hmp.bits, hy⟩, htrue, ?_, ⟨mm + 1, hblocks⟩, ?_⟩, hge, hlam⟩
    · rw [h2'] at ha
      exact List.mem_append_right _ ha
    · exact hbest v' hge (by rw [← h2']; exact e4')
  · rename_i hge
    refine Alg.HoldsOk.pure ⟨⟨⟨hmp.lam_pos, h1', hmp.mutation, hmp.bits, hy⟩, htrue, ?_, ⟨mm + 1, hblocks⟩, ?_⟩,
      le_refl _, hlam⟩
    · exact List.mem_append_left _ (List.mem_append_left _ hs.solution)
    · refine hbest s.solution.2 (le_refl _) ?_
      intro c hc
      rw [← h2'] at hc
      exact le_trans (e4' c hc) (le_of_lt (not_le.mp hge))

theorem lambdaInit_holdsOk [LinearOrder K] {env : Env K} {n lam : Nat} {val : BV → K} (henv : env.Computes n val)
    (bias : Rat) {s : AlgState K (LambdaData K)} (hs : s.solution.1.length = n) (hv : s.data.Valid n lam)
    (hcalls : s.calls = []) :
    Alg.HoldsOk (lambdaInit env bias) s (fun _ t => LambdaInv n lam val { t with lastIteration := false })
      (LambdaStop n val) := by
  unfold lambdaInit
  by_cases hb : 0 < bias ∧ bias < 1
  · refine Alg.HoldsOk.lift_bind (a := ()) ?_ (Alg.Holds.toOk (randomSolution_holds henv hs ?_ ?_))
    · unfold setBias
      rw [assert_pos (decide_eq_true hb.1), ok_bind, assert_pos (decide_eq_true hb.2)]
    · intro x hx
      refine ⟨hv, ?_, ?_, ⟨0, ?_⟩, ?_⟩
      · simp only [hcalls]; exact TrueCalls.nil.snoc hx
      · simp [hcalls]
      · simp [hcalls]
      · intro j c hj _
        simp only [hcalls, List.nil_append] at hj
        cases j with
        | zero => cases hj; exact le_refl _
        | succ j => cases hj
    · intro x hx
      exact ⟨by simp only [hcalls]; exact TrueCalls.nil, Or.inl hcalls⟩
  · intro ds r rest hr
    exfalso
    have hub : setBias bias = ub := by
      unfold setBias
      by_cases h0 : 0 < bias
      · rw [assert_pos (decide_eq_true h0), ok_bind, assert_neg (by rw [decide_eq_false_iff_not]; exact fun h => hb ⟨h0, h⟩)]
      · rw [assert_neg (by rw [decide_eq_false_iff_not]; exact h0)]
        rfl
    rw [hub] at hr
    cases hr

/-- C50: every run of the (1+(lambda, lambda)) genetic algorithm without undefined behaviour (see
`countTies_undefined_iff`) reports an evaluated vector with its value, which is at least as good as the first vector and
all vectors made by crossover.  (The mutants may be better, see `lambda_mutant_lost`.)  Also an interrupted run reports
an evaluated vector with its value. -/
theorem lambda_best_partial [LinearOrder K] {env : Env K} {n lam : Nat} {val : BV → K} (henv : env.Computes n val)
    (bias : Rat) {s : AlgState K (LambdaData K)} (hs : s.solution.1.length = n) (hv : s.data.Valid n lam)
    (hcalls : s.calls = []) (numIterations : Int) (fuel : Nat) :
    Alg.HoldsOk (lambdaMaximize env bias numIterations fuel) s
      (fun _ t => TrueCalls n val t.calls ∧ t.solution ∈ t.calls ∧
        ∀ (j : Nat) c, t.calls[j]? = some c → (j = 0 ∨ lam ≤ (j - 1) % (2 * lam)) → c.2 ≤ t.solution.2)
      (fun t => TrueCalls n val t.calls ∧ (t.calls = [] ∨ t.solution ∈ t.calls)) :=
  (algLoop_holdsOk (LambdaInv n lam val) (LambdaStop n val)
    (fun s hs => (lambdaIterate_holdsOk henv s hs).mono (fun _ _ h => h.1) (fun _ h => h.1))
    (lambdaInit_holdsOk henv bias hs hv hcalls) numIterations fuel).mono
    (fun _ _ h => ⟨h.true_calls, h.solution, h.best⟩) (fun _ h => h)

/-- C53 (negative part): with a single offspring, no iteration ever ends normally: it always reads past the end of the
population, unless an evaluation throws. -/
theorem lambda_one_never_iterates [LinearOrder K] {env : Env K} {n : Nat} {val : BV → K} (henv : env.Computes n val)
    {s : AlgState K (LambdaData K)} (hs : LambdaInv n 1 val s) :
    Alg.HoldsOk (lambdaIterate env) s (fun _ _ => False) (fun t => t.solution = s.solution) :=
  (lambdaIterate_holdsOk henv s hs).mono (fun _ _ h => h.2.2 rfl) (fun _ h => h.2)

/-- With a single offspring the default bias `1 / lambda` is rejected by an assertion. -/
theorem lambda_one_default_bias : setBias (1 / ((1 : Nat) : Rat)) = ub := by decide +kernel

/-! ## Examples -/

/-- OneMax on three bits. -/
def exampleLambda : AlgState Int (LambdaData Int) :=
  ⟨([true, false, false], 1), false, [([true, false, false], 1)],
    ⟨⟨[[false, false, false], [false, false, false]], [0, 0], [0, 1]⟩,
      ⟨3, [false, false, false], [false, false, false], []⟩, [false, false, false]⟩⟩

theorem exampleLambda_inv : LambdaInv 3 2 (fun x => Int.ofNat (x.count true)) exampleLambda := by
  refine ⟨⟨by decide, ⟨rfl, rfl, ?_, ?_⟩, ⟨⟨by decide, by decide⟩, rfl, rfl, by intro h; cases h⟩, rfl, rfl⟩, ?_, ?_,
    ⟨0, rfl⟩, ?_⟩
  · decide
  · decide
  · intro c hc
    simp only [exampleLambda, List.mem_singleton] at hc
    subst hc
    exact ⟨rfl, rfl⟩
  · simp [exampleLambda]
  · intro j c hj _
    match j, hj with
    | 0, hj => cases hj; exact le_refl _

/-- C50 (negative part): the mutant `[true, true, true]` has been evaluated, but is not offered to the solution, and the
crossovers are worse.  The iteration starts from `exampleLambda`, which satisfies the invariant. -/
theorem lambda_mutant_lost : ∃ ds, (match lambdaIterate exampleClimbEnv exampleLambda ds with
    | .ok r _ => some (r.2.solution, r.2.calls)
    | _ => none) = some (([true, true, false], 2), [([true, false, false], 1), ([true, true, true], 3),
      ([false, true, false], 1), ([true, true, false], 2), ([true, false, false], 1)]) :=
  ⟨[2, 9, 10, 0, 1, 0, 1, 0, 1, 0, 1, 0, 1, 0, 0, 0, 0, 1, 0, 0, 0, 0, 0, 0, 0], by decide +kernel⟩

example : Alg.HoldsOk (lambdaIterate exampleClimbEnv) exampleLambda
    (fun _ t => LambdaInv 3 2 (fun x => Int.ofNat (x.count true)) t ∧ (1 : Int) ≤ t.solution.2 ∧ 2 ≠ 1)
    (fun t => LambdaStop 3 (fun x => Int.ofNat (x.count true)) t ∧ t.solution = ([true, false, false], 1)) :=
  lambdaIterate_holdsOk (fun _ _ => rfl) exampleLambda exampleLambda_inv

/-- Three individuals, of which two tie. -/
example : countTies (⟨[[true, false], [false, true], [false, false]], [1, 1, 0], [1, 0, 2]⟩ : Pop Int) 1 0 = ok 2 := by
  decide +kernel

/-- Two individuals, which tie. -/
example : countTies (⟨[[true, false], [false, true]], [1, 1], [1, 0]⟩ : Pop Int) 1 0 = ub := by
  decide +kernel

/-- A complete run. -/
example : (match lambdaMaximize exampleClimbEnv (1 / 2) 1 10 { exampleLambda with calls := [] }
    [1, 0, 0, 1, 1, 0, 0, 0, 0, 0, 0, 1, 1, 1, 0, 0, 0, 0, 0, 0] with
  | .ok r _ => some (r.2.solution, r.2.calls.length)
  | _ => none) = some (([true, true, false], 2), 5) := by decide +kernel

end Hnco
