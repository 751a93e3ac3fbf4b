import Verif.Model.Maths
import Verif.Spec.Pairs
/-! Helper lemmas for `Model/Maths`. -/
namespace Verif.Maths
open Verif.Spec

/-- Entries `(l, c), (l, c+1), ..`, `m` of them, numbered from `k`. -/
def rowL (l c k : Nat) : Nat → List Triple
  | 0 => []
  | m + 1 => (l, c, k) :: rowL l (c + 1) (k + 1) m

/-- All pairs whose smaller component is among `l, l+1, .., l+d-1`. -/
def lexL (n l k : Nat) : Nat → List Triple
  | 0 => []
  | d + 1 => rowL l (l + 1) k (n - l) ++ lexL n (l + 1) (k + (n - l)) d

theorem diagLoop_row (n : Nat) : ∀ (m rest i l c : Nat), l ≤ c → c + m ≤ n - 1 →
    diagLoop n (m + rest) i l c = rowL (l + 1) (c + 2) (i + 1) m ++ diagLoop n rest (i + m) l (c + m) := by
  intro m
  induction m with
  | zero => intros; simp [rowL]
  | succ m ih =>
    intro rest i l c hl hc
    have e : m + 1 + rest = (m + rest) + 1 := by omega
    rw [e]
    have hs : diagStep n l c = (l, c + 1) := by
      unfold diagStep; split
      · rfl
      · split
        · omega
        · rfl
    simp only [diagLoop, hs, rowL, List.cons_append]
    rw [ih rest (i + 1) l (c + 1) (by omega) (by omega)]
    congr 3 <;> omega

/-- Number of pairs with smaller component among `l..l+d-1`. -/
def cnt (n l : Nat) : Nat → Nat
  | 0 => 0
  | d + 1 => (n - l) + cnt n (l + 1) d

theorem diagLoop_lex (n : Nat) : ∀ (d l i rest : Nat), l + d + 2 ≤ n →
    diagLoop n (cnt n (l + 2) d + rest) i l (n - 1)
      = lexL n (l + 2) (i + 1) d ++ diagLoop n rest (i + cnt n (l + 2) d) (l + d) (n - 1) := by
  intro d
  induction d with
  | zero => intro l i rest h; simp [cnt, lexL]
  | succ d ih =>
    intro l i rest h
    simp only [cnt, lexL]
    obtain ⟨m, hm⟩ : ∃ m, n - (l + 2) = m + 1 := ⟨n - (l + 2) - 1, by omega⟩
    rw [hm]
    have e : m + 1 + cnt n (l + 2 + 1) d + rest = (m + (cnt n (l + 1 + 2) d + rest)) + 1 := by
      have : l + 2 + 1 = l + 1 + 2 := by omega
      rw [this]; omega
    rw [e]
    have hs : diagStep n l (n - 1) = (l + 1, l + 1 + 1) := by
      unfold diagStep
      rw [if_neg (by omega), if_pos (by omega)]
    simp only [diagLoop, hs]
    rw [diagLoop_row n m _ (i + 1) (l + 1) (l + 1 + 1) (by omega) (by omega)]
    have e2 : l + 1 + 1 + m = n - 1 := by omega
    rw [e2, ih (l + 1) (i + 1 + m) rest (by omega)]
    have e3 : l + 2 + 1 = l + 1 + 2 := by omega
    rw [e3]
    simp only [rowL, List.cons_append, List.append_assoc]
    have a1 : i + 1 + m + 1 = i + 1 + (m + 1) := by omega
    have a2 : i + 1 + m + cnt n (l + 1 + 2) d = i + (m + 1 + cnt n (l + 1 + 2) d) := by omega
    have a3 : l + 1 + d = l + (d + 1) := by omega
    rw [a1, a2, a3]

/-- The counting formula used by the code. -/
theorem cnt_eq (n : Nat) : ∀ (d l : Nat), l + d ≤ n → 2 * cnt n l d = d * (2 * (n - l) + 1 - d) := by
  intro d
  induction d with
  | zero => intro l _; simp [cnt]
  | succ d ih =>
    intro l h
    have := ih (l + 1) (by omega)
    simp only [cnt, Nat.mul_add, this]
    obtain ⟨a, ha⟩ : ∃ a, n - l = a + d + 1 := ⟨n - l - d - 1, by omega⟩
    have h1 : n - (l + 1) = a + d := by omega
    rw [ha, h1]
    have h2 : 2 * (a + d) + 1 - d = 2 * a + d + 1 := by omega
    have h3 : 2 * a + 2 * d + 2 * 1 + 1 - (d + 1) = 2 * a + d + 2 := by omega
    have h4 : 2 * (a + d + 1) + 1 - (d + 1) = 2 * a + d + 2 := by omega
    rw [h2]
    first | rw [h4] | rw [h3]
    rw [Nat.add_mul]
    simp only [Nat.mul_add, Nat.mul_comm, Nat.mul_one]
    omega

theorem diag_count (n : Nat) (h : 1 ≤ n) : (n - 1) * (n - 1 + 1) / 2 = cnt n 1 (n - 1) := by
  have := cnt_eq n (n - 1) 1 (by omega)
  have e : 2 * (n - 1) + 1 - (n - 1) = n - 1 + 1 := by omega
  rw [e] at this
  omega

theorem diagLoop_full (n rest : Nat) (h : 2 ≤ n) :
    diagLoop n (cnt n 1 (n - 1) + rest) 0 0 0 = lexL n 1 1 (n - 1) ++
      diagLoop n rest (cnt n 1 (n - 1)) (n - 2) (n - 1) := by
  obtain ⟨m, rfl⟩ : ∃ m, n = m + 2 := ⟨n - 2, by omega⟩
  have e : m + 2 - 1 = m + 1 := by omega
  rw [e]
  simp only [cnt, lexL]
  have e0 : m + 2 - 1 + cnt (m + 2) (1 + 1) m + rest = (m + 1) + (cnt (m + 2) (0 + 2) m + rest) := by
    have : (1 : Nat) + 1 = 0 + 2 := rfl
    rw [this]; omega
  rw [e0, diagLoop_row (m + 2) (m + 1) _ 0 0 0 (by omega) (by omega)]
  have e1 : 0 + (m + 1) = m + 2 - 1 := by omega
  rw [e1, diagLoop_lex (m + 2) m 0 (m + 2 - 1) rest (by omega)]
  have e2 : m + 2 - 2 = m := by omega
  have e3 : (1:Nat) + (m + 2 - 1) = m + 2 - 1 + 1 := by omega
  simp only [Nat.zero_add, e2, e, List.append_assoc]
  rw [Nat.add_comm (m + 1) 1]

theorem diag_eq_lex (n : Nat) (h : 1 ≤ n) : diag n = lexL n 1 1 (n - 1) := by
  simp only [diag]
  rw [diag_count n h]
  by_cases h1 : n = 1
  · subst h1; rfl
  · have := diagLoop_full n 0 (by omega)
    simpa [diagLoop] using this

theorem diagWOffset_eq (n : Nat) (h : 1 ≤ n) :
    diagWOffset n = diag n ++ [(n, n + 1, n * (n - 1) / 2 + 1)] := by
  rw [diag_eq_lex n h]
  simp only [diagWOffset]
  have hc := diag_count n h
  rw [hc]
  have hn : n * (n - 1) / 2 = cnt n 1 (n - 1) := by
    rw [← hc]; congr 1
    have : n - 1 + 1 = n := by omega
    rw [this, Nat.mul_comm]
  rw [hn]
  by_cases h1 : n = 1
  · subst h1; rfl
  · rw [diagLoop_full n 1 (by omega)]
    simp only [diagLoop]
    have hs : diagStep n (n - 2) (n - 1) = (n - 1, n) := by
      unfold diagStep
      rw [if_neg (by omega), if_pos (by omega)]
      congr 1 <;> omega
    rw [hs]
    have : n - 1 + 1 = n := by omega
    simp [this]

theorem rowL_getElem? (l : Nat) : ∀ (m c k j : Nat),
    (rowL l c k m)[j]? = if j < m then some (l, c + j, k + j) else none := by
  intro m
  induction m with
  | zero => intro c k j; simp [rowL]
  | succ m ih =>
    intro c k j
    cases j with
    | zero => simp [rowL]
    | succ j =>
      simp only [rowL, List.getElem?_cons_succ, ih]
      by_cases h : j < m
      · rw [if_pos h, if_pos (by omega)]
        have a : c + 1 + j = c + (j + 1) := by omega
        have b : k + 1 + j = k + (j + 1) := by omega
        rw [a, b]
      · rw [if_neg h, if_neg (by omega)]

theorem rowL_length (l : Nat) : ∀ (m c k : Nat), (rowL l c k m).length = m := by
  intro m; induction m with
  | zero => intros; rfl
  | succ m ih => intros; simp [rowL, ih]

theorem lexL_length (n : Nat) : ∀ (d l k : Nat), (lexL n l k d).length = cnt n l d := by
  intro d; induction d with
  | zero => intros; rfl
  | succ d ih => intros; simp [lexL, cnt, ih, rowL_length]

theorem mem_rowL (l : Nat) : ∀ (m c k : Nat) (t : Triple),
    t ∈ rowL l c k m ↔ t.1 = l ∧ c ≤ t.2.1 ∧ t.2.1 < c + m ∧ t.2.2 = k + (t.2.1 - c) := by
  intro m; induction m with
  | zero => intro c k t; simp [rowL]; omega
  | succ m ih =>
    intro c k ⟨a, b, d⟩
    simp only [rowL, List.mem_cons, ih, Prod.mk.injEq]
    omega

theorem rowStart_mono_step (n l : Nat) : rowStart n (l + 1) = rowStart n l + (n - (l + 1)) := rfl

theorem mem_lexL (n : Nat) : ∀ (d l k : Nat) (t : Triple), l + d ≤ n → 1 ≤ l → k = rowStart n (l - 1) + 1 →
    (t ∈ lexL n l k d ↔ l ≤ t.1 ∧ t.1 < l + d ∧ t.1 < t.2.1 ∧ t.2.1 ≤ n ∧ t.2.2 = pairRank n t.1 t.2.1) := by
  intro d; induction d with
  | zero => intro l k t _ _ _; simp [lexL]; omega
  | succ d ih =>
    intro l k t hd hl hk
    simp only [lexL, List.mem_append, mem_rowL]
    have hk' : k + (n - l) = rowStart n (l + 1 - 1) + 1 := by
      obtain ⟨m, rfl⟩ : ∃ m, l = m + 1 := ⟨l - 1, by omega⟩
      simp only [Nat.add_sub_cancel] at hk ⊢
      rw [rowStart_mono_step]; omega
    rw [ih (l + 1) (k + (n - l)) t (by omega) (by omega) hk']
    obtain ⟨a, b, i⟩ := t
    simp only [pairRank]
    constructor
    · rintro (⟨rfl, h1, h2, h3⟩ | h)
      · refine ⟨by omega, by omega, by omega, by omega, by omega⟩
      · refine ⟨by omega, by omega, by omega, by omega, by omega⟩
    · rintro ⟨h1, h2, h3, h4, h5⟩
      by_cases ha : a = l
      · left; subst ha; refine ⟨rfl, by omega, by omega, by omega⟩
      · right; refine ⟨by omega, by omega, by omega, by omega, by omega⟩

/-- Membership in the enumeration. -/
theorem mem_diag (n : Nat) (h : 1 ≤ n) (t : Triple) :
    t ∈ diag n ↔ IsPair n t.1 t.2.1 ∧ t.2.2 = pairRank n t.1 t.2.1 := by
  rw [diag_eq_lex n h, mem_lexL n (n - 1) 1 1 t (by omega) (by omega) (by simp [rowStart])]
  unfold IsPair
  constructor
  · rintro ⟨a, b, c, d, e⟩; exact ⟨⟨a, c, d⟩, e⟩
  · rintro ⟨⟨a, c, d⟩, e⟩; exact ⟨a, by omega, c, d, e⟩

theorem rowL_index (l : Nat) : ∀ (m c k j : Nat) (t : Triple), (rowL l c k m)[j]? = some t → t.2.2 = k + j := by
  intro m c k j t h
  rw [rowL_getElem?] at h
  split at h
  · injection h with h; subst h; rfl
  · cases h

theorem lexL_index (n : Nat) : ∀ (d l k j : Nat) (t : Triple), (lexL n l k d)[j]? = some t → t.2.2 = k + j := by
  intro d; induction d with
  | zero => intro l k j t h; simp [lexL] at h
  | succ d ih =>
    intro l k j t h
    simp only [lexL] at h
    by_cases hj : j < n - l
    · rw [List.getElem?_append_left (by rw [rowL_length]; exact hj)] at h
      exact rowL_index _ _ _ _ _ _ h
    · rw [List.getElem?_append_right (by rw [rowL_length]; omega), rowL_length] at h
      have := ih _ _ _ _ h
      omega

/-- Position and third component agree. -/
theorem diag_index (n : Nat) (h : 1 ≤ n) (j : Nat) (t : Triple) (ht : (diag n)[j]? = some t) :
    t.2.2 = j + 1 := by
  rw [diag_eq_lex n h] at ht
  have := lexL_index _ _ _ _ _ _ ht
  omega

theorem diag_lookup (n : Nat) (h : 1 ≤ n) (l c : Nat) (hp : IsPair n l c) :
    (diag n)[pairRank n l c - 1]? = some (l, c, pairRank n l c) := by
  have hm : (l, c, pairRank n l c) ∈ diag n := (mem_diag n h _).2 ⟨hp, rfl⟩
  obtain ⟨j, hj⟩ := List.mem_iff_getElem?.1 hm
  have := diag_index n h j _ hj
  simp only at this
  rw [show pairRank n l c - 1 = j by omega]; exact hj

/-! ### Rows of the matrix -/

theorem matrixRow_eq_filter (d : List Triple) (i : Nat) :
    matrixRow d i = d.filter (fun t => decide (i = t.1 ∨ i = t.2.1)) := by
  unfold matrixRow
  induction d with
  | nil => rfl
  | cons t ts ih =>
    simp only [List.filterMap_cons, List.filter_cons, ih]
    by_cases h : i = t.1 ∨ i = t.2.1 <;> simp [h]

/-- The row of role `i` restricted to lines `< i`. -/
def lowRow (n i : Nat) (l : Nat) : Nat → List Triple
  | 0 => []
  | d + 1 => (l, i, pairRank n l i) :: lowRow n i (l + 1) d

theorem filter_rowL_ne (i l : Nat) (hl : i ≠ l) : ∀ (m c k : Nat),
    (rowL l c k m).filter (fun t => decide (i = t.1 ∨ i = t.2.1))
      = if c ≤ i ∧ i < c + m then [(l, i, k + (i - c))] else [] := by
  intro m; induction m with
  | zero => intro c k; rw [if_neg (by omega)]; rfl
  | succ m ih =>
    intro c k
    simp only [rowL, List.filter_cons, ih]
    by_cases hc : i = c
    · subst hc
      rw [if_pos (by simp), if_neg (by omega), if_pos (by omega)]; simp
    · have : (decide (i = l ∨ i = c)) = false := by simp [hl, hc]
      rw [if_neg (by simp [this])]
      by_cases h2 : c + 1 ≤ i ∧ i < c + 1 + m
      · rw [if_pos h2, if_pos (by omega)]
        have : k + 1 + (i - (c + 1)) = k + (i - c) := by omega
        rw [this]
      · rw [if_neg h2, if_neg (by omega)]

theorem filter_rowL_eq (l : Nat) : ∀ (m c k : Nat),
    (rowL l c k m).filter (fun t => decide (l = t.1 ∨ l = t.2.1)) = rowL l c k m := by
  intro m; induction m with
  | zero => intros; rfl
  | succ m ih => intro c k; simp only [rowL, List.filter_cons, ih]; simp

theorem filter_lexL_gt (n i : Nat) : ∀ (d l k : Nat), i < l →
    (lexL n l k d).filter (fun t => decide (i = t.1 ∨ i = t.2.1)) = [] := by
  intro d; induction d with
  | zero => intros; rfl
  | succ d ih =>
    intro l k h
    simp only [lexL, List.filter_append, ih (l + 1) _ (by omega), filter_rowL_ne i l (by omega)]
    rw [if_neg (by omega)]; rfl

theorem filter_lexL (n i : Nat) (hi : i ≤ n) : ∀ (d l k : Nat), l + d = n → 1 ≤ l → l ≤ i →
    k = rowStart n (l - 1) + 1 →
    (lexL n l k d).filter (fun t => decide (i = t.1 ∨ i = t.2.1))
      = lowRow n i l (i - l) ++ rowL i (i + 1) (rowStart n (i - 1) + 1) (n - i) := by
  intro d; induction d with
  | zero =>
    intro l k hd hl hli hk
    have : l = n := by omega
    have : i = n := by omega
    subst_vars
    have : l + 0 - l = 0 := by omega
    simp [lexL, lowRow, rowL, this]
  | succ d ih =>
    intro l k hd hl hli hk
    simp only [lexL, List.filter_append]
    have hk' : k + (n - l) = rowStart n (l + 1 - 1) + 1 := by
      obtain ⟨m, rfl⟩ : ∃ m, l = m + 1 := ⟨l - 1, by omega⟩
      simp only [Nat.add_sub_cancel] at hk ⊢
      rw [rowStart_mono_step]; omega
    by_cases h : i = l
    · subst h
      rw [filter_rowL_eq, filter_lexL_gt n i d (i + 1) _ (by omega)]
      simp [lowRow, hk]
    · rw [filter_rowL_ne i l h, if_pos (by omega), ih (l + 1) _ (by omega) (by omega) (by omega) hk']
      obtain ⟨m, hm⟩ : ∃ m, i - l = m + 1 := ⟨i - l - 1, by omega⟩
      have hm' : i - (l + 1) = m := by omega
      rw [hm, hm']
      simp only [lowRow, List.cons_append, List.nil_append]
      congr 3
      unfold pairRank; omega

theorem lowRow_getElem? (n i : Nat) : ∀ (d l j : Nat),
    (lowRow n i l d)[j]? = if j < d then some (l + j, i, pairRank n (l + j) i) else none := by
  intro d; induction d with
  | zero => intro l j; simp [lowRow]
  | succ d ih =>
    intro l j
    cases j with
    | zero => simp [lowRow]
    | succ j =>
      simp only [lowRow, List.getElem?_cons_succ, ih]
      have : l + 1 + j = l + (j + 1) := by omega
      rw [this]
      by_cases h : j < d
      · rw [if_pos h, if_pos (by omega)]
      · rw [if_neg h, if_neg (by omega)]

theorem lowRow_length (n i : Nat) : ∀ (d l : Nat), (lowRow n i l d).length = d := by
  intro d; induction d with
  | zero => intros; rfl
  | succ d ih => intros; simp [lowRow, ih]

theorem matrixRow_diag (n i : Nat) (h1 : 1 ≤ i) (h2 : i ≤ n) :
    matrixRow (diag n) i = lowRow n i 1 (i - 1) ++ rowL i (i + 1) (rowStart n (i - 1) + 1) (n - i) := by
  rw [matrixRow_eq_filter, diag_eq_lex n (by omega),
    filter_lexL n i h2 (n - 1) 1 1 (by omega) (by omega) h1 (by simp [rowStart])]

/-- The ordered pair of a role and another. -/
def ordPair (i p : Nat) : Nat × Nat := if i < p then (i, p) else (p, i)

theorem matrixRow_getElem? (n i j : Nat) (h1 : 1 ≤ i) (h2 : i ≤ n) (hj : j < n - 1) :
    (matrixRow (diag n) i)[j]? =
      some ((ordPair i (partner i (j + 1))).1, (ordPair i (partner i (j + 1))).2,
        pairRank n (ordPair i (partner i (j + 1))).1 (ordPair i (partner i (j + 1))).2) := by
  rw [matrixRow_diag n i h1 h2]
  by_cases h : j < i - 1
  · rw [List.getElem?_append_left (by rw [lowRow_length]; exact h), lowRow_getElem?, if_pos h]
    have e1 : partner i (j + 1) = j + 1 := by unfold partner; rw [if_pos (by omega)]
    have e2 : ordPair i (j + 1) = (j + 1, i) := by unfold ordPair; rw [if_neg (by omega)]
    rw [e1, e2, Nat.add_comm 1 j]
  · rw [List.getElem?_append_right (by rw [lowRow_length]; omega), lowRow_length, rowL_getElem?,
      if_pos (by omega)]
    have e1 : partner i (j + 1) = j + 2 := by unfold partner; rw [if_neg (by omega)]
    have e2 : ordPair i (j + 2) = (i, j + 2) := by unfold ordPair; rw [if_pos (by omega)]
    rw [e1, e2]
    have a : i + 1 + (j - (i - 1)) = j + 2 := by omega
    simp only [a, pairRank]
    congr 3; omega

theorem matrixRow_length (n i : Nat) (h1 : 1 ≤ i) (h2 : i ≤ n) :
    (matrixRow (diag n) i).length = n - 1 := by
  rw [matrixRow_diag n i h1 h2, List.length_append, lowRow_length, rowL_length]; omega

theorem getTupleMatrix_diag (n i j : Nat) (h1 : 1 ≤ i) (h2 : i ≤ n) (hj1 : 1 ≤ j) (hj : j ≤ n - 1) :
    getTupleMatrix (diagAndMatrix n).1 i j =
      some ((ordPair i (partner i j)).1, (ordPair i (partner i j)).2,
        pairRank n (ordPair i (partner i j)).1 (ordPair i (partner i j)).2) := by
  unfold getTupleMatrix diagAndMatrix
  rw [if_neg (by omega)]
  have hr : (List.range' 1 n)[i - 1]? = some i := by
    rw [List.getElem?_range' (by omega)]; congr 1; omega
  simp only [List.getElem?_map, hr, Option.map]
  rw [matrixRow_getElem? n i (j - 1) h1 h2 (by omega)]
  have : j - 1 + 1 = j := by omega
  rw [this]

theorem matrixRow_append (d e : List Triple) (i : Nat) :
    matrixRow (d ++ e) i = matrixRow d i ++ matrixRow e i := by
  simp [matrixRow, List.filterMap_append]

theorem getTupleMatrixW_eq (n i j : Nat) (h1 : 1 ≤ i) (h2 : i ≤ n) (hj1 : 1 ≤ j) (hj : j ≤ n - 1) :
    getTupleMatrix (diagAndMatrixWOffset n).1 i j = getTupleMatrix (diagAndMatrix n).1 i j := by
  unfold getTupleMatrix diagAndMatrix diagAndMatrixWOffset
  rw [if_neg (by omega), if_neg (by omega)]
  have hr : (List.range' 1 n)[i - 1]? = some i := by
    rw [List.getElem?_range' (by omega)]; congr 1; omega
  simp only [List.getElem?_map, hr, Option.map]
  rw [diagWOffset_eq n (by omega), matrixRow_append, List.getElem?_append_left]
  rw [matrixRow_length n i h1 h2]; omega

theorem getLineColumn_of_mem : ∀ (d : List Triple) (t : Triple), t ∈ d →
    (∀ a ∈ d, ∀ b ∈ d, a.2.2 = b.2.2 → a = b) → getLineColumnFromDiag d t.2.2 = some (t.1, t.2.1) := by
  intro d; induction d with
  | nil => intro t h; simp at h
  | cons a as ih =>
    intro t h hinj
    unfold getLineColumnFromDiag
    by_cases e : a.2.2 = t.2.2
    · rw [if_pos e]
      have := hinj a (by simp) t h e
      rw [this]
    · rw [if_neg e]
      refine ih t ?_ (fun x hx y hy => hinj x (by simp [hx]) y (by simp [hy]))
      rcases List.mem_cons.1 h with rfl | h
      · exact absurd rfl e
      · exact h

theorem diag_index_inj (n : Nat) (h : 1 ≤ n) : ∀ a ∈ diag n, ∀ b ∈ diag n, a.2.2 = b.2.2 → a = b := by
  intro a ha b hb e
  obtain ⟨i, hi⟩ := List.mem_iff_getElem?.1 ha
  obtain ⟨j, hj⟩ := List.mem_iff_getElem?.1 hb
  have h1 := diag_index n h i a hi
  have h2 := diag_index n h j b hj
  have : i = j := by omega
  subst this
  rw [hi] at hj; injection hj

theorem getLineColumn_diag (n l c : Nat) (h : 1 ≤ n) (hp : IsPair n l c) :
    getLineColumnFromDiag (diag n) (pairRank n l c) = some (l, c) := by
  have hm : (l, c, pairRank n l c) ∈ diag n := (mem_diag n h _).2 ⟨hp, rfl⟩
  exact getLineColumn_of_mem (diag n) (l, c, pairRank n l c) hm (diag_index_inj n h)

end Verif.Maths
