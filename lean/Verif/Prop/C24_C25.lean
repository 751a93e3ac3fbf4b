import Verif.Spec.TypeText
/-!
# C24, C25: the text functions of the checker
-/
namespace Verif.Prop
open Verif.Check Verif.Spec

theorem next_plain {s : Scan} {c : Char} (h : Plain c) (hi : 0 ≤ s.index) :
    s.next c = { s with temp := s.temp ++ [c] } := by
  obtain ⟨h1, h2, h3, h4, h5⟩ := h
  unfold Scan.next
  simp [h1, h2, h3, h4, h5, hi]

theorem fold_plain {h : Str} (hp : ∀ c ∈ h, Plain c) : ∀ (s : Scan), 0 ≤ s.index →
    h.foldl Scan.next s = { s with temp := s.temp ++ h } := by
  induction h with
  | nil => intro s _; simp
  | cons c h ih =>
    intro s hi
    rw [List.foldl_cons, next_plain (hp c List.mem_cons_self) hi,
      ih (fun c hc => hp c (List.mem_cons_of_mem _ hc)) _ (by exact hi)]
    simp

theorem next_open {s : Scan} (hi : 0 ≤ s.index) :
    s.next '<' = { s with temp := s.temp ++ ['<'], index := s.index + 1 } := by
  unfold Scan.next
  rw [if_neg (by decide), if_neg (by simp), if_pos ⟨rfl, hi⟩]

theorem next_close {s : Scan} (hi : 0 < s.index) :
    s.next '>' = { s with temp := s.temp ++ ['>'], index := s.index - 1 } := by
  unfold Scan.next
  rw [if_neg (by decide), if_neg (by intro h; omega), if_neg (by simp), if_pos ⟨rfl, by omega⟩]

theorem next_comma {s : Scan} (hi : 0 < s.index) :
    s.next ',' = { s with temp := s.temp ++ [','] } := by
  unfold Scan.next
  rw [if_neg (by decide), if_neg (by simp), if_neg (by simp), if_neg (by simp), if_neg (by intro h; omega),
    if_pos (by omega)]

mutual
  theorem fold_print : ∀ (t : Ty), t.Ok → ∀ (s : Scan), 0 ≤ s.index →
      t.print.foldl Scan.next s = { s with temp := s.temp ++ t.print }
    | .mk h [], hok, s, hi => by
      simp only [Ty.Ok] at hok
      rw [Ty.print]
      exact fold_plain hok.1 s hi
    | .mk h (a :: as), hok, s, hi => by
      simp only [Ty.Ok, AllOk] at hok
      rw [Ty.print]
      simp only [List.foldl_append, List.foldl_cons, List.foldl_nil]
      rw [fold_plain hok.1 s hi, next_open (by exact hi),
        fold_print a hok.2.1 _ (by simp only; omega), fold_more as hok.2.2 _ (by simp only; omega),
        next_close (by simp only; omega)]
      simp
  theorem fold_more : ∀ (ts : List Ty), AllOk ts → ∀ (s : Scan), 0 < s.index →
      (printMore ts).foldl Scan.next s = { s with temp := s.temp ++ printMore ts }
    | [], _, s, _ => by simp [printMore]
    | a :: as, hok, s, hi => by
      simp only [AllOk] at hok
      rw [printMore]
      simp only [List.foldl_append, List.foldl_cons]
      rw [next_comma hi, fold_print a hok.1 _ (by simp only; omega), fold_more as hok.2 _ (by exact hi)]
      simp
end

theorem fold_top : ∀ (ts : List Ty), AllOk ts → ∀ (s : Scan), s.index = 0 →
    (printMore ts).foldl Scan.next s =
      match ts.getLast? with
      | none => s
      | some t => { s with result := s.result ++ s.temp :: (ts.dropLast.map Ty.print), temp := t.print }
  | [], _, s, _ => by simp [printMore]
  | a :: as, hok, s, hi => by
    simp only [AllOk] at hok
    rw [printMore]
    simp only [List.foldl_append, List.foldl_cons]
    have hc : s.next ',' = { s with result := s.result ++ [s.temp], temp := [] } := by
      unfold Scan.next
      rw [if_neg (by decide), if_neg (by simp), if_neg (by simp), if_neg (by simp), if_pos ⟨rfl, hi⟩]
    rw [hc, fold_print a hok.1 _ (by simp only; omega), fold_top as hok.2 _ (by exact hi)]
    cases as with
    | nil => simp
    | cons b bs =>
      simp only [List.getLast?_cons_cons]
      rw [List.getLast?_eq_some_getLast (by simp)]
      simp

theorem skip_head {h : Str} (hp : ∀ c ∈ h, Plain c) : ∀ (s : Scan), s.index = -1 → h.foldl Scan.next s = s := by
  induction h with
  | nil => intro s _; rfl
  | cons c h ih =>
    intro s hi
    rw [List.foldl_cons]
    have : s.next c = s := by
      obtain ⟨h1, h2, h3, h4, h5⟩ := hp c List.mem_cons_self
      unfold Scan.next
      simp [h1, h2, h3, h4, h5, hi]
    rw [this]
    exact ih (fun c hc => hp c (List.mem_cons_of_mem _ hc)) s hi

/-- On text without white space. -/
theorem getBlocks_print : ∀ (t : Ty), t.Ok → getBlocks t.print = match t with | .mk _ as => as.map Ty.print
  | .mk h [], hok => by
    simp only [Ty.Ok] at hok
    unfold getBlocks
    rw [Ty.print, skip_head hok.1 _ rfl]
    rfl
  | .mk h (a :: as), hok => by
    simp only [Ty.Ok, AllOk] at hok
    have h1 : (⟨-1, [], []⟩ : Scan).next '<' = ⟨0, [], []⟩ := rfl
    have h2 : ∀ s : Scan, s.index = 0 → s.next '>' = { s with result := s.result ++ [s.temp], temp := [] } := by
      intro s hs
      unfold Scan.next
      rw [if_neg (by decide), if_pos ⟨rfl, hs⟩]
    unfold getBlocks
    rw [Ty.print]
    simp only [List.foldl_append, List.foldl_cons, List.foldl_nil]
    rw [skip_head hok.1 _ rfl, h1, fold_print a hok.2.1 _ (by simp), fold_top as hok.2.2 _ rfl]
    cases hl : as.getLast? with
    | none =>
      have : as = [] := List.getLast?_eq_none_iff.1 hl
      subst this
      simp only
      rw [h2 _ rfl]
      simp
    | some t =>
      simp only
      rw [h2 _ rfl]
      have : as = as.dropLast ++ [t] := by
        have hne : as ≠ [] := by intro h; subst h; simp at hl
        rw [List.getLast?_eq_some_getLast hne] at hl
        cases hl
        exact (List.dropLast_concat_getLast hne).symm
      simp only [List.nil_append, if_true, List.map_cons, List.cons_append, List.append_assoc]
      conv => rhs; rw [this]
      simp

theorem fold_filter (s : Str) : ∀ (x : Scan),
    s.foldl Scan.next x = (s.filter (fun c => !(c == '&' || isWs c))).foldl Scan.next x := by
  induction s with
  | nil => intro x; rfl
  | cons c s ih =>
    intro x
    rw [List.foldl_cons, ih]
    by_cases hc : c = '&' ∨ isWs c = true
    · rw [List.filter_cons_of_neg (by rcases hc with h | h <;> simp [h])]
      have : x.next c = x := by unfold Scan.next; rw [if_pos hc]
      rw [this]
    · rw [List.filter_cons_of_pos (by simp only [not_or] at hc; simp [hc.1, hc.2]), List.foldl_cons]

/-- C24.  Whatever the white space in the printed form of a type, the splitter returns exactly the printed forms
of its arguments, in order, without white space. -/
theorem C24_blocks (s : Str) (h : Str) (as : List Ty) (hok : (Ty.mk h as).Ok) (hp : Prints s (.mk h as)) :
    getBlocks s = as.map Ty.print := by
  have := getBlocks_print _ hok
  simp only at this
  unfold getBlocks at this ⊢
  rw [fold_filter, hp]
  exact this

theorem takeWhile_head {h rest : Str} (hp : ∀ c ∈ h, Plain c) :
    (h ++ '<' :: rest).takeWhile (· ≠ '<') = h := by
  induction h with
  | nil => simp
  | cons c h ih =>
    have := (hp c List.mem_cons_self).1
    simp only [List.cons_append]
    rw [List.takeWhile_cons_of_pos (by simp [this]), ih fun c hc => hp c (List.mem_cons_of_mem _ hc)]

theorem takeWhile_all {h : Str} (hp : ∀ c ∈ h, Plain c) : h.takeWhile (· ≠ '<') = h := by
  induction h with
  | nil => rfl
  | cons c h ih =>
    have := (hp c List.mem_cons_self).1
    rw [List.takeWhile_cons_of_pos (by simp [this]), ih fun c hc => hp c (List.mem_cons_of_mem _ hc)]

theorem getHead_print (h : Str) (as : List Ty) (hok : (Ty.mk h as).Ok) :
    getHead (Ty.mk h as).print = h :: as.map Ty.print := by
  have hb := getBlocks_print _ hok
  simp only at hb
  have hh := hok
  simp only [Ty.Ok] at hh
  have hin : as ≠ [] → '<' ∈ (Ty.mk h as).print := by
    intro hne
    cases as with
    | nil => exact absurd rfl hne
    | cons a as => rw [Ty.print]; simp
  unfold getHead
  by_cases h1 : (Ty.mk h as).print = ['E', 'n', 'd']
  · rw [if_pos h1]
    have : as = [] := by
      refine Classical.byContradiction fun hne => ?_
      have := hin hne
      rw [h1] at this
      simp at this
    subst this
    rw [Ty.print] at h1
    simp [h1]
  · rw [if_neg h1]
    by_cases h2 : (Ty.mk h as).print = ['R', 'o', 'l', 'e', 'E', 'n', 'd']
    · rw [if_pos h2]
      have : as = [] := by
        refine Classical.byContradiction fun hne => ?_
        have := hin hne
        rw [h2] at this
        simp at this
      subst this
      rw [Ty.print] at h2
      simp [h2]
    · rw [if_neg h2, hb]
      congr 1
      cases as with
      | nil => rw [Ty.print]; exact takeWhile_all hh.1
      | cons a as => rw [Ty.print, List.append_assoc, List.cons_append]; exact takeWhile_head hh.1

/-- C24.  From the printed form of `Head<A1,..,An>` the checker recovers the head and the printed arguments. -/
theorem C24_head (h : Str) (as : List Ty) (hok : (Ty.mk h as).Ok) :
    getHead (Ty.mk h as).print = h :: as.map Ty.print := getHead_print h as hok

/-- The round trip needs plain names: a tuple payload `(A, B)` is split at its comma, so the two arguments of
`Send<(A, B), End>` are taken for three. -/
theorem C24_tuple_payload :
    getHead ['S', 'e', 'n', 'd', '<', '(', 'A', ',', 'B', ')', ',', 'E', 'n', 'd', '>'] =
      [['S', 'e', 'n', 'd'], ['(', 'A'], ['B', ')'], ['E', 'n', 'd']] := by decide

/-- A nested type with white space meets the hypotheses of `C24_blocks`. -/
example : Prints ['S', '<', 'V', '<', 'i', '>', ',', ' ', 'E', '>']
      (.mk ['S'] [.mk ['V'] [.mk ['i'] []], .mk ['E'] []]) ∧
    (Ty.mk ['S'] [.mk ['V'] [.mk ['i'] []], .mk ['E'] []]).Ok := by
  refine ⟨?_, ?_⟩
  · unfold Prints; simp only [Ty.print, printMore]; decide
  · simp [Ty.Ok, AllOk, Plain]; decide

/-! ## C25 -/

theorem sess_ok : ∀ (s : Sess), s.Ok → s.ty.Ok
  | .fin, _ => by simp [Sess.ty, Ty.Ok, AllOk, Plain]; decide
  | .send p k, h => by
    have := sess_ok k h.2
    simp only [Sess.ty, Ty.Ok, AllOk]
    exact ⟨by simp [Plain]; decide, h.1, this, trivial⟩
  | .recv p k, h => by
    have := sess_ok k h.2
    simp only [Sess.ty, Ty.Ok, AllOk]
    exact ⟨by simp [Plain]; decide, h.1, this, trivial⟩

theorem print_two (h : Str) (a b : Ty) : (Ty.mk h [a, b]).print = h ++ ['<'] ++ a.print ++ [','] ++ b.print ++ ['>'] := by
  simp [Ty.print, printMore]

theorem buildDualAux_print : ∀ (s : Sess), s.Ok → ∀ n, s.ty.print.length < n →
    buildDualAux n s.ty.print = some s.dual.ty.print
  | .fin, _, n, hn => by
    cases n with
    | zero => omega
    | succ n => rw [buildDualAux]; rfl
  | .send p k, h, n, hn => by
    have hlen : k.ty.print.length + 2 < (Sess.send p k).ty.print.length := by
      simp only [Sess.ty, print_two, List.length_append, List.length_cons, List.length_nil]
      omega
    cases n with
    | zero => omega
    | succ n =>
      have hh : getHead (Sess.send p k).ty.print = [['S', 'e', 'n', 'd'], p.print, k.ty.print] :=
        getHead_print _ _ (sess_ok (.send p k) h)
      have ih := buildDualAux_print k h.2 n (by omega)
      rw [buildDualAux, if_neg]
      · simp only [hh, List.getElem?_cons_zero, List.getElem?_cons_succ]
        rw [if_neg (by simp), if_pos trivial, ih]
        simp only [Option.map_some, Sess.dual, Sess.ty, print_two]
        simp
      · simp [Sess.ty, print_two]
  | .recv p k, h, n, hn => by
    have hlen : k.ty.print.length + 2 < (Sess.recv p k).ty.print.length := by
      simp only [Sess.ty, print_two, List.length_append, List.length_cons, List.length_nil]
      omega
    cases n with
    | zero => omega
    | succ n =>
      have hh : getHead (Sess.recv p k).ty.print = [['R', 'e', 'c', 'v'], p.print, k.ty.print] :=
        getHead_print _ _ (sess_ok (.recv p k) h)
      have ih := buildDualAux_print k h.2 n (by omega)
      rw [buildDualAux, if_neg]
      · simp only [hh, List.getElem?_cons_zero, List.getElem?_cons_succ]
        rw [if_pos trivial, ih]
        simp only [Option.map_some, Sess.dual, Sess.ty, print_two]
        simp
      · simp [Sess.ty, print_two]

/-- C25.  The textual dual of a printed session is the printed dual. -/
theorem C25_dual (s : Sess) (h : s.Ok) : buildDual s.ty.print = some s.dual.ty.print :=
  buildDualAux_print s h _ (Nat.lt_succ_self _)

theorem dual_ok : ∀ (s : Sess), s.Ok → s.dual.Ok
  | .fin, _ => trivial
  | .send _ k, h => ⟨h.1, dual_ok k h.2⟩
  | .recv _ k, h => ⟨h.1, dual_ok k h.2⟩

/-- C25.  Applied twice it gives back the text. -/
theorem C25_twice (s : Sess) (h : s.Ok) : (buildDual s.ty.print).bind buildDual = some s.ty.print := by
  have hd : s.dual.dual = s := by
    clear h
    induction s with
    | fin => rfl
    | send p k ih => simp only [Sess.dual, ih]
    | recv p k ih => simp only [Sess.dual, ih]
  rw [C25_dual s h, Option.bind_some, C25_dual _ (dual_ok s h), hd]

/-- A session with a generic payload meets the hypothesis. -/
example : (Sess.send (.mk ['V'] [.mk ['i'] []]) (.recv (.mk ['u'] []) .fin)).Ok := by
  simp [Sess.Ok, Ty.Ok, AllOk, Plain]; decide

end Verif.Prop
