import Verif.Function.TspLoadSpec
import Verif.Function.CnfProps
import Mathlib.Data.Rat.Floor

/-! # Loading an instance of the travelling salesman (C83) -/

namespace Hnco

open Outcome

/-! ## Words -/

theorem FirstWord.extract {text word : List Char} (h : FirstWord text word) : ∃ r, extractToken text = some (word, r) := by
  obtain ⟨before, after, rfl, hne, hb, hw, ha⟩ := h
  exact ⟨after, extractToken_append word after hne hw ha before hb⟩

theorem FirstWord.stream {text word : List Char} (h : FirstWord text word) (old : List Char) : streamWord old text = word := by
  obtain ⟨r, hr⟩ := h.extract
  unfold streamWord
  rw [hr]

theorem extractToken_blank {text : List Char} (h : ∀ c ∈ text, isSpace c = true) : extractToken text = none := by
  have : skipSpace text = [] := by
    unfold skipSpace
    rw [List.dropWhile_eq_nil_iff]
    exact h
  simp [extractToken, this]

theorem streamWord_blank {text : List Char} (h : ∀ c ∈ text, isSpace c = true) (old : List Char) :
    streamWord old text = old := by
  unfold streamWord
  rw [extractToken_blank h]

theorem colon_split {before after : List Char} (hb : ':' ∉ before) (ha : after = [] ∨ after.head? = some ':') :
    (before ++ after).takeWhile (fun c => c != ':') = before ∧ (before ++ after).dropWhile (fun c => c != ':') = after := by
  refine takeWhile_append_stop _ before after ?_ ?_
  · intro c hc
    have : c ≠ ':' := fun e => hb (e ▸ hc)
    simpa using this
  · intro c hc
    rcases ha with rfl | ha
    · cases hc
    · rw [ha] at hc; cases hc; rfl

theorem HasKey.stream {line key : List Char} (h : HasKey line key) (old : List Char) :
    streamWord old (beforeColon line) = key := by
  obtain ⟨before, after, rfl, hb, ha, hw⟩ := h
  unfold beforeColon
  rw [(colon_split hb ha).1]
  exact hw.stream old

theorem HasKey.ne_nil {line key : List Char} (h : HasKey line key) : line ≠ [] := by
  obtain ⟨before, after, rfl, hb, ha, b, a, rfl, hne, -⟩ := h
  intro h
  simp only [List.append_eq_nil_iff] at h
  exact hne h.1.2.1

theorem IsField.hasKey {line key rest : List Char} (h : IsField line key rest) : HasKey line key := by
  obtain ⟨before, rfl, hb, hw⟩ := h
  exact ⟨before, _, rfl, hb, Or.inr rfl, hw⟩

theorem IsField.after {line key rest : List Char} (h : IsField line key rest) : afterColon line = rest := by
  obtain ⟨before, rfl, hb, hw⟩ := h
  unfold afterColon
  rw [(colon_split hb (Or.inr rfl)).2]

/-- Digits are read as their value. -/
theorem streamInt_digits {text digits : List Char} (h : FirstWord text digits) (hd : ∀ c ∈ digits, c.isDigit = true)
    (hn : digitsValue digits ≤ 2147483647) (old : Option Int) : streamInt old text = some (digitsValue digits : Int) := by
  obtain ⟨before, after, rfl, hne, hb, hw, ha⟩ := h
  obtain ⟨d, ds, rfl⟩ := List.exists_cons_of_ne_nil hne
  have hskip : skipSpace (before ++ (d :: ds ++ after)) = d :: ds ++ after := by
    unfold skipSpace
    rw [List.dropWhile_append_of_pos hb]
    have := hw d (by simp)
    simp [this]
  have hd0 : d.isDigit = true := hd d (by simp)
  have hne1 : d ≠ '-' := by rintro rfl; revert hd0; decide
  have hne2 : d ≠ '+' := by rintro rfl; revert hd0; decide
  have hs : extractSign (d :: ds ++ after) = (false, d :: ds ++ after) := by simp [extractSign, hne1, hne2]
  have ht : (d :: ds ++ after).takeWhile Char.isDigit = d :: ds := by
    refine (takeWhile_append_stop _ _ after hd ?_).1
    intro c hc
    have := ha c hc
    by_contra hcon
    rw [isDigit_not_isSpace (by simpa using hcon)] at this
    cases this
  unfold streamInt
  simp only [hskip, hs, ht]
  rw [if_neg (by simp)]
  simp only [Bool.false_eq_true, if_false]
  rw [if_neg (by omega), if_neg (by omega)]

theorem streamInt_blank {text : List Char} (h : ∀ c ∈ text, isSpace c = true) (old : Option Int) : streamInt old text = old := by
  have : skipSpace text = [] := by
    unfold skipSpace
    rw [List.dropWhile_eq_nil_iff]
    exact h
  simp [streamInt, this]

/-! ## The header -/

section
variable {K : Type} [Field K] [LinearOrder K] [FloorRing K]

/-- What is known between two lines of the header, given the fields read so far. -/
structure HeaderInv (fields : List TspField) (st : TspState K) : Prop where
  type : st.key = "TYPE".toList → st.value = "TSP".toList
  weight : st.key = "EDGE_WEIGHT_TYPE".toList → st.value = st.edgeWeight.keyword
  opening : st.key ≠ "NODE_COORD_SECTION".toList
  cities : st.numCities = ((fields.filterMap TspField.dimension?).getLast?).map (fun n : Nat => (n : Int))
  edges : st.edgeWeight = (fields.filterMap TspField.edgeWeight?).getLast?.getD .att
  xs : st.xs = []
  ys : st.ys = []
  distances : st.distances = []

omit [Field K] [LinearOrder K] [FloorRing K] in
theorem headerInv_new : HeaderInv [] (tspNew K) := by
  constructor <;> simp [tspNew]

theorem tspLine_header {fields : List TspField} {st : TspState K} (hi : HeaderInv fields st) {line : List Char} {f : TspField}
    (hl : IsHeaderLine line f) : ∃ st', tspLine st line = ok (st', false) ∧ HeaderInv (fields ++ [f]) st' := by
  cases f with
  | type =>
    obtain ⟨rest, h1, h2⟩ := hl
    refine ⟨{ st with key := "TYPE".toList, value := "TSP".toList }, ?_, ?_⟩
    · simp only [tspLine, if_neg h1.hasKey.ne_nil, h1.hasKey.stream, h1.after, h2.stream]
      simp
    · constructor <;> simp [TspField.dimension?, TspField.edgeWeight?, hi.cities, hi.edges, hi.xs, hi.ys, hi.distances]
  | dimension n =>
    obtain ⟨rest, digits, h1, h2, h3, h4, h5⟩ := hl
    refine ⟨{ st with key := "DIMENSION".toList, numCities := some (n : Int) }, ?_, ?_⟩
    · simp only [tspLine, if_neg h1.hasKey.ne_nil, h1.hasKey.stream, h1.after,
        streamInt_digits h2 h3 (by omega), h4]
      simp
    · constructor <;> simp [TspField.dimension?, TspField.edgeWeight?, hi.edges, hi.xs, hi.ys, hi.distances]
  | edgeWeight w =>
    obtain ⟨rest, h1, h2⟩ := hl
    refine ⟨{ st with key := "EDGE_WEIGHT_TYPE".toList, value := w.keyword, edgeWeight := w }, ?_, ?_⟩
    · simp only [tspLine, if_neg h1.hasKey.ne_nil, h1.hasKey.stream, h1.after, h2.stream]
      cases w <;> simp [EdgeWeight.keyword]
    · constructor <;> simp [TspField.dimension?, TspField.edgeWeight?, hi.cities, hi.xs, hi.ys, hi.distances]
  | ignored =>
    have same : ∀ st' : TspState K, st'.numCities = st.numCities → st'.edgeWeight = st.edgeWeight → st'.xs = st.xs →
        st'.ys = st.ys → st'.distances = st.distances →
        (st'.key = "TYPE".toList → st'.value = "TSP".toList) →
        (st'.key = "EDGE_WEIGHT_TYPE".toList → st'.value = st'.edgeWeight.keyword) →
        st'.key ≠ "NODE_COORD_SECTION".toList → HeaderInv (fields ++ [.ignored]) st' := by
      intro st' e1 e2 e3 e4 e5 e6 e7 e8
      refine ⟨e6, e7, e8, ?_, ?_, by rw [e3, hi.xs], by rw [e4, hi.ys], by rw [e5, hi.distances]⟩
      · rw [e1, hi.cities]; simp [TspField.dimension?]
      · rw [e2, hi.edges]; simp [TspField.edgeWeight?]
    by_cases h0 : line = []
    · refine ⟨st, by simp [tspLine, h0], same st rfl rfl rfl rfl rfl hi.type hi.weight hi.opening⟩
    · rcases hl with hl | ⟨key, h1, h2⟩
      · have hb : beforeColon line = line := by
          unfold beforeColon
          rw [List.takeWhile_eq_self_iff]
          intro c hc
          have : c ≠ ':' := by rintro rfl; have := hl _ hc; revert this; decide
          simpa using this
        have ha : afterColon line = line := by
          unfold afterColon
          have : line.dropWhile (fun c => c != ':') = [] := by
            rw [List.dropWhile_eq_nil_iff]
            intro c hc
            have : c ≠ ':' := by rintro rfl; have := hl _ hc; revert this; decide
            simpa using this
          rw [this]
        simp only [tspLine, if_neg h0, hb, ha, streamWord_blank hl, streamInt_blank hl]
        split
        · exact ⟨_, rfl, same _ rfl rfl rfl rfl rfl hi.type hi.weight hi.opening⟩
        · split
          · exact ⟨_, rfl, same _ rfl rfl rfl rfl rfl hi.type hi.weight hi.opening⟩
          · split
            · rename_i hk
              rw [if_neg (by rw [hi.type hk]; simp)]
              exact ⟨_, rfl, same _ rfl rfl rfl rfl rfl hi.type hi.weight hi.opening⟩
            · split
              · exact ⟨_, rfl, same _ rfl rfl rfl rfl rfl hi.type hi.weight hi.opening⟩
              · split
                · rename_i hk
                  have hv := hi.weight hk
                  rcases hw : st.edgeWeight with _ | _
                  · rw [hw] at hv
                    rw [if_pos (by rw [hv]; rfl)]
                    exact ⟨_, rfl, same _ rfl (by simp [hw]) rfl rfl rfl hi.type (fun _ => hv) hi.opening⟩
                  · rw [hw] at hv
                    rw [if_neg (by rw [hv]; decide), if_pos (by rw [hv]; rfl)]
                    exact ⟨_, rfl, same _ rfl (by simp [hw]) rfl rfl rfl hi.type (fun _ => hv) hi.opening⟩
                · rw [if_neg hi.opening]
                  exact ⟨_, rfl, same _ rfl rfl rfl rfl rfl hi.type hi.weight hi.opening⟩
      · simp only [tspKeys, List.mem_cons, List.not_mem_nil, or_false, not_or] at h2
        obtain ⟨k1, k2, k3, k4⟩ := h2
        simp only [tspLine, if_neg h0, h1.stream]
        split
        · exact ⟨_, rfl, same _ rfl rfl rfl rfl rfl (fun h => absurd h k1) (fun h => absurd h k3) k4⟩
        · split
          · exact ⟨_, rfl, same _ rfl rfl rfl rfl rfl (fun h => absurd h k1) (fun h => absurd h k3) k4⟩
          · exact ⟨_, rfl, same _ rfl rfl rfl rfl rfl (fun h => absurd h k1) (fun h => absurd h k3) k4⟩

/-- A line is read up to its end. -/
theorem tspScan_line (sqrt : K → K) (ef : List Char → Option (K × List Char)) (st : TspState K) (acc l rest : List Char)
    (hl : '\n' ∉ l) : tspScan sqrt ef st acc (l ++ '\n' :: rest) = (do
      let r ← tspLine st (acc ++ l)
      if r.2 then tspSection sqrt ef r.1 rest else tspScan sqrt ef r.1 [] rest) := by
  induction l generalizing acc with
  | nil => simp [tspScan]
  | cons c l ih =>
    have hc : c ≠ '\n' := fun e => hl (by simp [e])
    rw [List.cons_append, tspScan, if_neg hc, ih _ (fun h => hl (by simp [h]))]
    simp

theorem tspScan_last (sqrt : K → K) (ef : List Char → Option (K × List Char)) (st : TspState K) (acc l : List Char)
    (hl : '\n' ∉ l) : tspScan sqrt ef st acc l = (do
      let r ← tspLine st (acc ++ l)
      if r.2 then tspSection sqrt ef r.1 [] else ok r.1) := by
  induction l generalizing acc with
  | nil => simp [tspScan]
  | cons c l ih =>
    have hc : c ≠ '\n' := fun e => hl (by simp [e])
    rw [tspScan, if_neg hc, ih _ (fun h => hl (by simp [h]))]
    simp

theorem tspScan_header (sqrt : K → K) (ef : List Char → Option (K × List Char)) (header : List (List Char))
    (fields : List TspField) (hnl : ∀ l ∈ header, '\n' ∉ l) (hf : List.Forall₂ IsHeaderLine header fields)
    (rest : List Char) : ∀ (before : List TspField) (st : TspState K), HeaderInv before st →
    ∃ st', HeaderInv (before ++ fields) st' ∧
      tspScan sqrt ef st [] ((header.map (fun l => l ++ ['\n'])).flatten ++ rest) = tspScan sqrt ef st' [] rest := by
  induction hf with
  | nil => intro before st hi; exact ⟨st, by simpa using hi, by simp⟩
  | @cons l f header fields h1 h2 ih =>
    intro before st hi
    obtain ⟨st1, e1, e2⟩ := tspLine_header hi h1
    obtain ⟨st2, e3, e4⟩ := ih (fun l hl => hnl l (by simp [hl])) _ _ e2
    refine ⟨st2, by simpa using e3, ?_⟩
    rw [← e4]
    simp only [List.map_cons, List.flatten_cons, List.append_assoc, List.cons_append, List.nil_append]
    rw [tspScan_line _ _ _ _ _ _ (hnl l (by simp)), List.nil_append, e1, ok_bind]
    simp

/-! ## Cities -/

omit [Field K] [LinearOrder K] [FloorRing K] in
theorem ListsCities.range {ef : List Char → Option (K × List Char)} {n : Nat} {s : List Char} {l : List (Nat × K × K)}
    (h : ListsCities ef n s l) : ∀ c ∈ l, 1 ≤ c.1 ∧ c.1 ≤ n := by
  induction h with
  | stop => simp
  | city _ h1 h2 _ _ _ ih =>
    intro c hc
    rcases List.mem_cons.mp hc with rfl | hc
    · exact ⟨h1, h2⟩
    · exact ih c hc

omit [LinearOrder K] [FloorRing K] in
/-- After reading, each coordinate is the last one listed, or the one which was there. -/
theorem tspCoordinates_lists (ef : List Char → Option (K × List Char)) (hef : ∀ s v r, ef s = some (v, r) → r.length ≤ s.length)
    (n : Nat) {s : List Char} {l : List (Nat × K × K)} (h : ListsCities ef n s l) :
    ∀ (fuel : Nat) (xs ys : List K), s.length < fuel → xs.length = n → ys.length = n →
    ∃ xs' ys', tspCoordinates ef n fuel s (xs, ys) = ok (xs', ys') ∧ xs'.length = n ∧ ys'.length = n ∧
      ∀ i < n, (∃ l1 l2, l = l1 ++ (i + 1, entry xs' i, entry ys' i) :: l2 ∧ ∀ c ∈ l2, c.1 ≠ i + 1) ∨
        ((∀ c ∈ l, c.1 ≠ i + 1) ∧ entry xs' i = entry xs i ∧ entry ys' i = entry ys i) := by
  induction h with
  | @stop s h =>
    intro fuel xs ys hf hx hy
    obtain ⟨fuel, rfl⟩ := Nat.exists_eq_add_of_lt (Nat.zero_lt_of_lt hf)
    refine ⟨xs, ys, ?_, hx, hy, fun i hi => Or.inr ⟨by simp, rfl, rfl⟩⟩
    rw [Nat.zero_add, tspCoordinates, h]
  | @city s s1 s2 s3 k x y l h1 h2 h3 h4 h5 h6 ih =>
    intro fuel xs ys hf hx hy
    obtain ⟨fuel, rfl⟩ := Nat.exists_eq_add_of_lt (Nat.zero_lt_of_lt hf)
    have hlen : s3.length < fuel := by
      have a := extractInt_consumes h1
      have b := hef _ _ _ h4
      have c := hef _ _ _ h5
      omega
    have hk : ((k : Int) - 1).toNat = k - 1 := by omega
    obtain ⟨xs', ys', e1, e2, e3, e4⟩ := ih fuel (xs.set (k - 1) x) (ys.set (k - 1) y) hlen (by simpa using hx)
      (by simpa using hy)
    refine ⟨xs', ys', ?_, e2, e3, ?_⟩
    · rw [Nat.zero_add, tspCoordinates, h1]
      simp only
      rw [assert_pos (by simp; omega), ok_bind, hk, vget_eq (by omega), ok_bind]
      simp only [streamFloat, h4]
      rw [vset_eq (by omega), ok_bind, vget_eq (by omega), ok_bind]
      simp only [h5]
      rw [vset_eq (by omega), ok_bind]
      exact e1
    · intro i hi
      rcases e4 i hi with ⟨l1, l2, e5, e6⟩ | ⟨e5, e6, e7⟩
      · exact Or.inl ⟨(k, x, y) :: l1, l2, by rw [e5]; rfl, e6⟩
      · by_cases hik : k = i + 1
        · left
          refine ⟨[], l, ?_, e5⟩
          subst hik
          rw [e6, e7]
          simp [entry, hx, hy, hi]
        · right
          refine ⟨?_, ?_, ?_⟩
          · intro c hc
            rcases List.mem_cons.mp hc with rfl | hc
            · exact hik
            · exact e5 c hc
          · rw [e6]; unfold entry; rw [List.getElem?_set_ne (by omega)]
          · rw [e7]; unfold entry; rw [List.getElem?_set_ne (by omega)]

/-! ## Files -/

omit [LinearOrder K] [FloorRing K] in
theorem entry_vresize_nil (n i : Nat) : entry (vresize ([] : List K) n 0) i = 0 := by
  unfold entry vresize
  simp only [List.take_nil, List.length_nil, Nat.sub_zero, List.nil_append, List.getElem?_replicate]
  split <;> rfl

theorem tspLine_opening {fields : List TspField} {st : TspState K} (hi : HeaderInv fields st) {line : List Char}
    (h : HasKey line "NODE_COORD_SECTION".toList) : ∃ st', tspLine st line = ok (st', true) ∧
      st'.numCities = st.numCities ∧ st'.edgeWeight = st.edgeWeight ∧ st'.xs = [] ∧ st'.ys = [] ∧ st'.distances = [] := by
  refine ⟨{ st with key := "NODE_COORD_SECTION".toList }, ?_, rfl, rfl, hi.xs, hi.ys, hi.distances⟩
  simp only [tspLine, if_neg h.ne_nil, h.stream]
  simp

omit [LinearOrder K] [FloorRing K] in
theorem square_sub (a b c d : K) : (a - b) * (a - b) + (c - d) * (c - d) = (b - a) * (b - a) + (d - c) * (d - c) := by ring

theorem weight_symmetric (sqrt : K → K) (w : EdgeWeight) (a b c d : K) :
    w.weight sqrt (a - b) (c - d) = w.weight sqrt (b - a) (d - c) := by
  cases w
  · simp only [EdgeWeight.weight, tspAtt, square_sub a b c d]
  · simp only [EdgeWeight.weight, tspEuc, square_sub a b c d]

theorem weight_isDistance [IsStrictOrderedRing K] (sqrt : K → K) (hs : ∀ z, 0 ≤ sqrt z) (w : EdgeWeight) (dx dy : K) :
    w.IsDistance sqrt dx dy (w.weight sqrt dx dy) := by
  cases w
  · exact tspAtt_ceil sqrt hs dx dy
  · exact tspEuc_round sqrt hs dx dy

/-- C83: a file in TSPLIB format is loaded; distances are those of TSPLIB between the cities listed in the file. -/
theorem tspLoad_file [IsStrictOrderedRing K] (sqrt : K → K) (hs : ∀ z, 0 ≤ sqrt z) (ef : List Char → Option (K × List Char))
    (hef : ∀ s v r, ef s = some (v, r) → r.length ≤ s.length) {text : List Char} {n : Nat} {w : EdgeWeight}
    {cities : List (Nat × K × K)} (h : IsTspFile ef text n w cities) :
    ∃ st, tspLoad sqrt ef text = ok st ∧ IsDistanceTable st.distances n ∧ ∃ x y : Nat → K,
      (∀ i < n, HasCoordinates cities i (x i) (y i)) ∧
      ∀ i j, i < n → j < n → i ≠ j → w.IsDistance sqrt (x i - x j) (y i - y j) (gridEntry st.distances i j) := by
  obtain ⟨⟨header, fields, opening, coordinates, rfl, hnl, hf, ho, hkey, hn, hw, hc⟩, h0⟩ := h
  obtain ⟨st1, i1, e1⟩ := tspScan_header sqrt ef header fields hnl hf (opening ++ '\n' :: coordinates) [] (tspNew K) headerInv_new
  rw [List.nil_append] at i1
  obtain ⟨st2, e2, c1, c2, c3, c4, c5⟩ := tspLine_opening i1 hkey
  have hcities : st2.numCities = some (n : Int) := by rw [c1, i1.cities, hn]; rfl
  have hedge : st2.edgeWeight = w := by rw [c2, i1.edges, hw]
  obtain ⟨xs, ys, e3, e4, e5, e6⟩ := tspCoordinates_lists ef hef n hc (coordinates.length + 1) (vresize [] n 0) (vresize [] n 0)
    (by omega) (by simp [vresize]) (by simp [vresize])
  obtain ⟨g, g1, g2, g3⟩ := tspDistances_table (w.weight sqrt) xs ys [] n h0 e4 e5
  refine ⟨{ st2 with xs := xs, ys := ys, distances := g }, ?_, g2, entry xs, entry ys, ?_, ?_⟩
  · unfold tspLoad
    rw [e1, tspScan_line _ _ _ _ _ _ ho, List.nil_append, e2, ok_bind]
    simp only [if_true, tspSection, hcities]
    rw [assert_pos (by simpa using h0), ok_bind, c3, c4, Int.toNat_natCast, e3, ok_bind, hedge, c5, g1, ok_bind]
  · intro i hi
    rcases e6 i hi with h | ⟨h1, h2, h3⟩
    · exact Or.inl h
    · exact Or.inr ⟨h1, by rw [h2, entry_vresize_nil], by rw [h3, entry_vresize_nil]⟩
  · intro i j hi hj hij
    have : gridEntry g i j = w.weight sqrt (entry xs i - entry xs j) (entry ys i - entry ys j) := by
      rcases Nat.lt_or_gt_of_ne hij with hlt | hlt
      · rw [g2.2.1, g3 j i hlt hj, weight_symmetric]
      · exact g3 i j hlt hi
    simp only
    rw [this]
    exact weight_isDistance sqrt hs w _ _

/-- C83: a file whose type is not `TSP`, or whose type of distance is neither `ATT` nor `EUC_2D`, is refused, whatever follows. -/
theorem tspLoad_refuses (sqrt : K → K) (ef : List Char → Option (K × List Char)) (header : List (List Char))
    (fields : List TspField) (hnl : ∀ l ∈ header, '\n' ∉ l) (hf : List.Forall₂ IsHeaderLine header fields)
    (line rest word following : List Char) (hl : '\n' ∉ line)
    (hbad : (IsField line "TYPE".toList rest ∧ FirstWord rest word ∧ word ≠ "TSP".toList) ∨
      (IsField line "EDGE_WEIGHT_TYPE".toList rest ∧ FirstWord rest word ∧ ∀ w : EdgeWeight, word ≠ w.keyword)) :
    tspLoad sqrt ef ((header.map (fun l => l ++ ['\n'])).flatten ++ (line ++ '\n' :: following)) = .throw .runtimeError := by
  obtain ⟨st, -, e⟩ := tspScan_header sqrt ef header fields hnl hf (line ++ '\n' :: following) [] (tspNew K) headerInv_new
  unfold tspLoad
  rw [e, tspScan_line _ _ _ _ _ _ hl, List.nil_append]
  have : tspLine st line = .throw .runtimeError := by
    rcases hbad with ⟨h1, h2, h3⟩ | ⟨h1, h2, h3⟩
    · simp only [tspLine, if_neg h1.hasKey.ne_nil, h1.hasKey.stream, h1.after, h2.stream]
      simpa using h3
    · simp only [tspLine, if_neg h1.hasKey.ne_nil, h1.hasKey.stream, h1.after, h2.stream]
      have a := h3 .att
      have b := h3 .euc2d
      simp only [EdgeWeight.keyword] at a b
      simp only [if_neg a, if_neg b]
      simp
  rw [this]
  rfl

/-- C83 (negative part): a file without a dimension before the coordinates is not refused: the number of cities is read although
it is not initialised. -/
theorem tspLoad_no_dimension (sqrt : K → K) (ef : List Char → Option (K × List Char)) (header : List (List Char))
    (fields : List TspField) (hnl : ∀ l ∈ header, '\n' ∉ l) (hf : List.Forall₂ IsHeaderLine header fields)
    (opening coordinates : List Char) (ho : '\n' ∉ opening) (hkey : HasKey opening "NODE_COORD_SECTION".toList)
    (hnone : ∀ n, TspField.dimension n ∉ fields) :
    tspLoad sqrt ef ((header.map (fun l => l ++ ['\n'])).flatten ++ (opening ++ '\n' :: coordinates)) = ub := by
  obtain ⟨st1, i1, e1⟩ := tspScan_header sqrt ef header fields hnl hf (opening ++ '\n' :: coordinates) [] (tspNew K) headerInv_new
  rw [List.nil_append] at i1
  obtain ⟨st2, e2, c1, -⟩ := tspLine_opening i1 hkey
  have hno : fields.filterMap TspField.dimension? = [] := by
    rw [List.filterMap_eq_nil_iff]
    intro f hf
    cases f with
    | dimension n => exact absurd hf (hnone n)
    | _ => rfl
  have hcities : st2.numCities = none := by rw [c1, i1.cities, hno]; rfl
  unfold tspLoad
  rw [e1, tspScan_line _ _ _ _ _ _ ho, List.nil_append, e2, ok_bind]
  simp only [if_true, tspSection, hcities]

/-- C83 (negative part): a file without coordinates is not refused; the object then has no cities. -/
theorem tspLoad_no_coordinates (sqrt : K → K) (ef : List Char → Option (K × List Char)) (header : List (List Char))
    (fields : List TspField) (hnl : ∀ l ∈ header, '\n' ∉ l) (hf : List.Forall₂ IsHeaderLine header fields) :
    ∃ st, tspLoad sqrt ef (header.map (fun l => l ++ ['\n'])).flatten = ok st ∧ st.distances = [] := by
  obtain ⟨st1, i1, e1⟩ := tspScan_header sqrt ef header fields hnl hf [] [] (tspNew K) headerInv_new
  rw [List.append_nil] at e1
  refine ⟨st1, ?_, i1.distances⟩
  unfold tspLoad
  rw [e1]
  simp [tspScan, tspLine]

/-! ## Written files -/

omit [Field K] [LinearOrder K] [FloorRing K] in
theorem listsCities_text (ef : List Char → Option (K × List Char)) (showValue : K → List Char)
    (n : Nat) (hn : n ≤ 2147483647) (points : List (K × K))
    (hshow : ∀ p ∈ points, ReadsBack ef showValue p.1 ∧ ReadsBack ef showValue p.2) : ∀ (k : Nat) (sp : List Char), 1 ≤ k → k + points.length ≤ n + 1 →
    (∀ c ∈ sp, isSpace c = true) → ListsCities ef n (sp ++ ((points.zipIdx k).flatMap (fun p => showInt p.2 ++ ' ' ::
      (showValue p.1.1 ++ ' ' :: (showValue p.1.2 ++ ['\n']))) ++ "EOF\n".toList))
      ((points.zipIdx k).map (fun p => (p.2, p.1.1, p.1.2))) := by
  induction points with
  | nil =>
    intro k sp hk hlen hsp
    refine ListsCities.stop ?_
    have hskip : skipSpace (sp ++ "EOF\n".toList) = "EOF\n".toList := by
      unfold skipSpace
      rw [List.dropWhile_append_of_pos hsp]
      rfl
    simp only [List.zipIdx_nil, List.flatMap_nil, List.nil_append]
    unfold extractInt
    rw [hskip]
    rfl
  | cons p points ih =>
    intro k sp hk hlen hsp
    simp only [List.length_cons] at hlen
    have h := ih (fun q hq => hshow q (by simp [hq])) (k + 1) ['\n'] (by omega) (by omega) (by simp [isSpace])
    rw [List.zipIdx_cons, List.map_cons]
    refine ListsCities.city ?_ hk (by omega) ((hshow p (by simp)).1 _ ⟨_, _, rfl, rfl⟩)
      ((hshow p (by simp)).2 _ ⟨_, _, rfl, rfl⟩) h
    simp only [List.flatMap_cons, List.append_assoc, List.cons_append, List.nil_append]
    exact extractInt_showInt k (by omega) (by omega) _ (by intro c hc; simp at hc; rw [← hc]; decide) sp hsp

omit [Field K] [LinearOrder K] [FloorRing K] in
/-- C83: the text of an instance is a file in TSPLIB format, which lists the cities in order. -/
theorem tspText_isTspFile (ef : List Char → Option (K × List Char)) (showValue : K → List Char)
    (name : List Char) (hname : '\n' ∉ name) (w : EdgeWeight) (points : List (K × K)) (h0 : points ≠ [])
    (hn : points.length ≤ 2147483647) (hshow : ∀ p ∈ points, ReadsBack ef showValue p.1 ∧ ReadsBack ef showValue p.2) :
    IsTspFile ef (tspText showValue name w points) points.length w
      ((points.zipIdx 1).map (fun p => (p.2, p.1.1, p.1.2))) := by
  have hspace : ∀ c ∈ [' '], isSpace c = true := by simp [isSpace]
  have hw : ∀ w : EdgeWeight, w.keyword ≠ [] ∧ ∀ c ∈ w.keyword, isSpace c = false := by
    intro w; cases w <;> decide
  have hfirst : ∀ key : List Char, key ≠ [] → (∀ c ∈ key, isSpace c = false) → FirstWord (key ++ [' ']) key := by
    intro key h1 h2
    exact ⟨[], [' '], rfl, h1, by simp, h2, by intro c hc; cases hc; rfl⟩
  have hvalue : ∀ key : List Char, key ≠ [] → (∀ c ∈ key, isSpace c = false) → FirstWord (' ' :: key) key := by
    intro key h1 h2
    exact ⟨[' '], [], by simp, h1, hspace, h2, by simp⟩
  refine ⟨⟨_, [.ignored, .type, .dimension points.length, .edgeWeight w], _, _, rfl, ?_, ?_, by decide, ?_, rfl, rfl, ?_⟩, List.length_pos_iff.mpr h0⟩
  · intro l hl
    simp only [List.mem_cons, List.not_mem_nil, or_false] at hl
    rcases hl with rfl | rfl | rfl | rfl
    · simpa using hname
    · decide
    · simpa using newline_not_mem_showInt _
    · cases w <;> decide
  · refine .cons ?_ (.cons ?_ (.cons ?_ (.cons ?_ .nil)))
    · exact Or.inr ⟨"NAME".toList, ⟨"NAME ".toList, ':' :: ' ' :: name, rfl, by decide, Or.inr rfl,
        hfirst "NAME".toList (by decide) (by decide)⟩, by decide⟩
    · exact ⟨" TSP".toList, ⟨"TYPE ".toList, rfl, by decide, hfirst "TYPE".toList (by decide) (by decide)⟩,
        hvalue "TSP".toList (by decide) (by decide)⟩
    · have hs : showInt points.length = showNat points.length := by
        unfold showInt
        rw [if_neg (by omega)]
        rfl
      refine ⟨' ' :: showInt points.length, showInt points.length, ⟨"DIMENSION ".toList, rfl, by decide,
        hfirst "DIMENSION".toList (by decide) (by decide)⟩, hvalue _ ?_ ?_, ?_, ?_, hn⟩
      · rw [hs]; exact showNat_ne_nil _
      · rw [hs]; exact fun c hc => isDigit_not_isSpace (showNat_digits _ c hc)
      · rw [hs]; exact showNat_digits _
      · rw [hs]; exact showNat_value _
    · exact ⟨' ' :: w.keyword, ⟨"EDGE_WEIGHT_TYPE ".toList, rfl, by decide, hfirst "EDGE_WEIGHT_TYPE".toList (by decide) (by decide)⟩,
        hvalue _ (hw w).1 (hw w).2⟩
  · exact ⟨"NODE_COORD_SECTION".toList, [], by simp, by decide, Or.inl rfl, [], [], rfl, by decide, by simp, by decide, by simp⟩
  · exact listsCities_text ef showValue _ hn points hshow 1 [] (by omega) (by omega) (by simp)

/-- C83: an instance which is written then loaded has the distances between its points. -/
theorem tspLoad_text [IsStrictOrderedRing K] (sqrt : K → K) (hs : ∀ z, 0 ≤ sqrt z) (ef : List Char → Option (K × List Char))
    (hef : ∀ s v r, ef s = some (v, r) → r.length ≤ s.length) (showValue : K → List Char)
    (name : List Char) (hname : '\n' ∉ name) (w : EdgeWeight) (points : List (K × K)) (h0 : points ≠ [])
    (hn : points.length ≤ 2147483647) (hshow : ∀ p ∈ points, ReadsBack ef showValue p.1 ∧ ReadsBack ef showValue p.2) :
    ∃ st, tspLoad sqrt ef (tspText showValue name w points) = ok st ∧ IsDistanceTable st.distances points.length ∧
      ∀ (i j : Nat) (p q : K × K), points[i]? = some p → points[j]? = some q → i ≠ j →
        w.IsDistance sqrt (p.1 - q.1) (p.2 - q.2) (gridEntry st.distances i j) := by
  obtain ⟨st, e1, e2, x, y, e3, e4⟩ := tspLoad_file sqrt hs ef hef (tspText_isTspFile ef showValue name hname w points h0 hn hshow)
  have hpoint : ∀ (i : Nat) (p : K × K), points[i]? = some p → i < points.length ∧ x i = p.1 ∧ y i = p.2 := by
    intro i p hp
    have hi : i < points.length := by
      by_contra hc
      rw [List.getElem?_eq_none (by omega)] at hp
      cases hp
    refine ⟨hi, ?_⟩
    have hmem : ((i + 1, p.1, p.2) : Nat × K × K) ∈ (points.zipIdx 1).map (fun p => (p.2, p.1.1, p.1.2)) := by
      rw [List.mem_map]
      refine ⟨(p, i + 1), ?_, rfl⟩
      rw [List.mk_mem_zipIdx_iff_le_and_getElem?_sub]
      exact ⟨by omega, by simpa using hp⟩
    rcases e3 i hi with ⟨l1, l2, h1, -⟩ | ⟨h1, -⟩
    · have : ((i + 1, x i, y i) : Nat × K × K) ∈ (points.zipIdx 1).map (fun p => (p.2, p.1.1, p.1.2)) := by
        rw [h1]; simp
      rw [List.mem_map] at this
      obtain ⟨⟨q, k⟩, h2, h3⟩ := this
      rw [List.mk_mem_zipIdx_iff_le_and_getElem?_sub] at h2
      simp only [Prod.mk.injEq] at h3
      obtain ⟨rfl, h4, h5⟩ := h3
      rw [Nat.add_sub_cancel, hp] at h2
      obtain rfl := Option.some.inj h2.2
      exact ⟨h4.symm, h5.symm⟩
    · exact absurd rfl (h1 _ hmem)
  refine ⟨st, e1, e2, ?_⟩
  intro i j p q hp hq hij
  obtain ⟨a1, a2, a3⟩ := hpoint i p hp
  obtain ⟨b1, b2, b3⟩ := hpoint j q hq
  have := e4 i j a1 b1 hij
  rwa [a2, a3, b2, b3] at this

end

/-! ## Examples -/

/-- Reads integers only. -/
def readIntegers (s : List Char) : Option (Rat × List Char) := (extractInt s).map (fun p => ((p.1 : Rat), p.2))

/-- A stand-in for the square root in examples. -/
def exampleRoot (z : Rat) : Rat := if 0 ≤ z then z else 0

/-- Three cities, not in order, with fields in an unusual order and a blank line. -/
def exampleTsp : List Char :=
  "EDGE_WEIGHT_TYPE: EUC_2D\n \nDIMENSION : 3\nTYPE: TSP (small)\nNODE_COORD_SECTION\n2 3 4\n1 0 1\n3 -1 0\nEOF\n".toList

/-- C83 (negative part): a file which does not list every city is not refused: the others are at (0, 0). -/
theorem tspLoad_missing_city : ∃ st, tspLoad exampleRoot readIntegers
    "TYPE: TSP\nDIMENSION: 3\nNODE_COORD_SECTION\n1 10 0\nEOF\n".toList = ok st ∧
    st.distances = [[0, 10, 10], [10, 0, 0], [10, 0, 0]] := by
  refine ⟨{ tspNew Rat with key := "NODE_COORD_SECTION".toList, value := "TSP".toList, numCities := some 3, xs := [10, 0, 0], ys := [0, 0, 0], distances := [[0, 10, 10], [10, 0, 0], [10, 0, 0]] }, ?_, rfl⟩
  decide +kernel

/-- C83 (negative part): a city whose number is out of range is not refused; an assertion fails, and without it there is a write out
of range. -/
theorem tspLoad_wrong_index : tspLoad exampleRoot readIntegers
    "TYPE: TSP\nDIMENSION: 3\nNODE_COORD_SECTION\n0 10 0\nEOF\n".toList = ub := by decide +kernel

/-- C83 (negative part): without a colon the dimension is not read and becomes 0; an assertion fails. -/
theorem tspLoad_no_colon : tspLoad exampleRoot readIntegers
    "TYPE: TSP\nDIMENSION 3\nNODE_COORD_SECTION\n1 10 0\nEOF\n".toList = ub := by decide +kernel

theorem readIntegers_shorter : ∀ s v r, readIntegers s = some (v, r) → r.length ≤ s.length := by
  intro s v r h
  unfold readIntegers at h
  rw [Option.map_eq_some_iff] at h
  obtain ⟨⟨z, r'⟩, h1, h2⟩ := h
  obtain ⟨-, rfl⟩ := Prod.mk.inj h2
  have := extractInt_consumes h1
  simp only
  omega

example : ∀ z, 0 ≤ exampleRoot z := by
  intro z
  unfold exampleRoot
  split
  · assumption
  · exact le_refl _

example : IsTspFile readIntegers exampleTsp 3 .euc2d [(2, 3, 4), (1, 0, 1), (3, -1, 0)] := by
  refine ⟨⟨["EDGE_WEIGHT_TYPE: EUC_2D".toList, " ".toList, "DIMENSION : 3".toList, "TYPE: TSP (small)".toList],
    [.edgeWeight .euc2d, .ignored, .dimension 3, .type], "NODE_COORD_SECTION".toList, "2 3 4\n1 0 1\n3 -1 0\nEOF\n".toList,
    by decide, by decide, .cons ?_ (.cons ?_ (.cons ?_ (.cons ?_ .nil))), by decide, ?_, rfl, rfl, ?_⟩, by decide⟩
  · exact ⟨" EUC_2D".toList, ⟨"EDGE_WEIGHT_TYPE".toList, rfl, by decide, [], [], by decide, by decide, by simp, by decide, by simp⟩,
      [' '], [], by decide, by decide, by decide, by decide, by simp⟩
  · exact Or.inl (by decide)
  · exact ⟨" 3".toList, ['3'], ⟨"DIMENSION ".toList, rfl, by decide, [], [' '], by decide, by decide, by simp, by decide,
      by intro c hc; cases hc; rfl⟩, ⟨[' '], [], by decide, by decide, by decide, by decide, by simp⟩, by decide, by decide, by decide⟩
  · exact ⟨" TSP (small)".toList, ⟨"TYPE".toList, rfl, by decide, [], [], by decide, by decide, by simp, by decide, by simp⟩,
      [' '], " (small)".toList, by decide, by decide, by decide, by decide, by intro c hc; cases hc; rfl⟩
  · exact ⟨"NODE_COORD_SECTION".toList, [], by decide, by decide, Or.inl rfl, [], [], by decide, by decide, by simp, by decide, by simp⟩
  · refine .city (s1 := " 3 4\n1 0 1\n3 -1 0\nEOF\n".toList) (s2 := " 4\n1 0 1\n3 -1 0\nEOF\n".toList) (s3 := "\n1 0 1\n3 -1 0\nEOF\n".toList)
      (by decide +kernel) (by decide) (by decide) (by decide +kernel) (by decide +kernel) ?_
    refine .city (s1 := " 0 1\n3 -1 0\nEOF\n".toList) (s2 := " 1\n3 -1 0\nEOF\n".toList) (s3 := "\n3 -1 0\nEOF\n".toList)
      (by decide +kernel) (by decide) (by decide) (by decide +kernel) (by decide +kernel) ?_
    refine .city (s1 := " -1 0\nEOF\n".toList) (s2 := " 0\nEOF\n".toList) (s3 := "\nEOF\n".toList)
      (by decide +kernel) (by decide) (by decide) (by decide +kernel) (by decide +kernel) ?_
    exact .stop (by decide +kernel)

example : ∃ st, tspLoad exampleRoot readIntegers exampleTsp = ok st ∧ st.distances = [[0, 18, 2], [18, 0, 32], [2, 32, 0]] := by
  refine ⟨{ tspNew Rat with key := "NODE_COORD_SECTION".toList, value := "TSP".toList, numCities := some 3, edgeWeight := .euc2d, xs := [0, 3, -1], ys := [1, 4, 0], distances := [[0, 18, 2], [18, 0, 32], [2, 32, 0]] }, ?_, rfl⟩
  decide +kernel

example : tspLoad exampleRoot readIntegers "NAME: x\nTYPE: ATSP\nDIMENSION: 3\n".toList = .throw .runtimeError := by decide +kernel
example : tspLoad exampleRoot readIntegers "NAME: x\nEDGE_WEIGHT_TYPE: GEO\n".toList = .throw .runtimeError := by decide +kernel

/-- Coordinates which are integers are read back. -/
example (z : Int) (h1 : -2147483648 ≤ z) (h2 : z ≤ 2147483647) : ReadsBack readIntegers (fun q : Rat => showInt q.num) z := by
  rintro rest ⟨c, t, rfl, hc⟩
  have := extractInt_showInt z h1 h2 (c :: t) (by
    intro d hd
    cases hd
    by_contra hcon
    rw [isDigit_not_isSpace (by simpa using hcon)] at hc
    cases hc) [' '] (by simp [isSpace])
  simp only [List.cons_append, List.nil_append] at this
  simp [readIntegers, this]

end Hnco
