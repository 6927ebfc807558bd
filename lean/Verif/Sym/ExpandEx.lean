import Verif.Sym.Expand
import Verif.Sym.Format

/-!
# Expansion: cases that meet the hypotheses
-/

namespace Verif.Sym

theorem takeWhile_all {α : Type} {p : α → Bool} : ∀ {l : List α}, (∀ a ∈ l, p a = true) →
    l.takeWhile p = l
  | [], _ => rfl
  | a :: l, h => by
    rw [List.takeWhile_cons, h a (by simp)]
    simp only [if_true]
    rw [takeWhile_all fun b hb => h b (by simp [hb])]

/-- With the number format of the code the text test of `Pow::expand` recognises integers, as long as
the six digits of a number that is no integer show a point. -/
theorem realCfg_intText (frac frac6 : ℝ → Str) (srt : List (Expr ℝ) → List (Expr ℝ))
    (hs : ∀ l, (srt l).Perm l) (hp : ∀ x : ℝ, (¬ ∃ n : ℕ, x = n) → '.' ∈ frac6 x) :
    (realCfg frac (fmtReal frac6) srt hs).IntText := by
  intro c n neg h
  unfold intExp at h
  dsimp only at h
  set C := realCfg frac (fmtReal frac6) srt hs with hCdef
  have hd : C.val (if C.isNeg c then C.neg c else c) =
      if C.isNeg c then -(C.val c) else C.val c := by
    split <;> rfl
  generalize (if C.isNeg c then C.neg c else c) = d at h hd
  by_cases hc : (C.lt100 d && !(C.fmt6 d).contains '.' && decide (1 < atoi (C.fmt6 d))) = true
  · rw [if_pos hc] at h
    simp only [Bool.and_eq_true, decide_eq_true_eq] at hc
    obtain ⟨⟨h100, hdot⟩, hat⟩ := hc
    have h100 : d < 100 := by simpa [hCdef, realCfg] using h100
    have hfmt : C.fmt6 d = fmtReal frac6 d := rfl
    rw [hfmt] at hdot hat h
    have hint : ∃ k : ℕ, d = k := by
      by_contra hno
      unfold fmtReal at hdot
      rw [if_neg hno] at hdot
      have := hp d hno
      rw [List.contains_iff_mem.2 this] at hdot
      cases hdot
    obtain ⟨k, rfl⟩ := hint
    have hk : k < 1000000 := by
      have : k < 100 := by exact_mod_cast h100
      omega
    rw [fmtReal_small frac6 hk] at h
    have hval : atoi (Nat.toDigits 10 k) = k := by
      unfold atoi
      have : (Nat.toDigits 10 k).takeWhile Char.isDigit = Nat.toDigits 10 k := by
        refine takeWhile_all ?_
        exact fun c hc => Nat.isDigit_of_mem_toDigits (by norm_num) (by norm_num) hc
      rw [this, Nat.ofDigitChars_toDigits (by norm_num) (by norm_num)]
    rw [hval] at h
    cases h
    have hd' : (n : ℝ) = if C.isNeg c then -(C.val c) else C.val c := hd
    split at hd'
    · rename_i hn; rw [hn, if_pos rfl, hd']; ring
    · rename_i hn
      have hn : C.isNeg c = false := by simpa using hn
      rw [hn]; simp [hd']
  · rw [if_neg hc] at h; cases h

namespace ExpandEx

/-- A concrete engine with that format. -/
noncomputable def C : Cfg ℝ :=
  realCfg (fun _ => ['0', '.', '5']) (fmtReal fun _ => ['0', '.', '5']) id fun l => List.Perm.refl l

theorem exact : C.Exact := realCfg_exact _ _ _ _

theorem intText : C.IntText := realCfg_intText _ _ _ _ (by simp)

theorem expandF_var (n : Nat) (x : Str) : expandF C (n + 1) (.var x) = some (.var x) := rfl

theorem expandF_con (n : Nat) (c : ℝ) : expandF C (n + 1) (.con c) = some (.con c) := rfl

theorem expandF_add (n : Nat) (vs : List (Expr ℝ)) :
    expandF C (n + 1) (.add vs) = (mapO (expandF C n) vs).map (mkAdd C) := by
  rw [expandF]

theorem expandF_prod (n : Nat) {vs t a : List (Expr ℝ)}
    (h1 : mapO (expandF C n) (vs.filter fun v => !v.isAdd) = some t)
    (h2 : mapO (expandF C n) (vs.filter Expr.isAdd) = some a) :
    expandF C (n + 1) (.prod vs) = some (distr C (scaleOf C t) a) := by
  simp only [expandF, h1, h2]

/-- `(x + y)^2` with the exponent a constant: multiplied out, once per call. -/
theorem square (x y : Str) :
    expandF C 4 (.pow (.add [.var x, .var y]) (.con (2 : ℝ))) =
      some (.add [.prod [.add [.var x, .var y], .var x], .prod [.add [.var x, .var y], .var y]]) ∧
    expandF C 4
        (.add [.prod [.add [.var x, .var y], .var x], .prod [.add [.var x, .var y], .var y]]) =
      some (.add [.add [.prod [.var x, .var x], .prod [.var x, .var y]],
        .add [.prod [.var y, .var x], .prod [.var y, .var y]]]) := by
  have h : intExp C (.con (2 : ℝ)) = some (2, false) := by
    have hf : C.fmt6 (2 : ℝ) = ['2'] := by
      change fmtReal (fun _ => ['0', '.', '5']) (2 : ℝ) = ['2']
      have := fmtReal_small (fun _ => ['0', '.', '5']) (n := 2) (by norm_num)
      push_cast at this
      rw [this]; decide
    have h2 : atoi ['2'] = 2 := by decide
    have hn : C.isNeg (2 : ℝ) = false := by simp [C, realCfg]
    have hl : C.lt100 (2 : ℝ) = true := by simp [C, realCfg]; norm_num
    simp [intExp, hn, hf, hl, h2]
  have hsrt : ∀ l, C.srt l = l := fun _ => rfl
  have h1 : C.eqInt (C.ofInt 1) 1 = true := by simp [C, realCfg]
  have hm : mulN C (clone C (.add [.var x, .var y])) 1 (clone C (.add [.var x, .var y])) =
      .prod [.add [.var x, .var y], .add [.var x, .var y]] := by
    simp [clone, cloneL, mulN, mul, isZero, isOne, mkAdd, hsrt]
  have ha : ∀ n, expandF C (n + 2) (.add [.var x, .var y]) = some (.add [.var x, .var y]) := by
    intro n
    simp [expandF_add, mapO, expandF_var, mkAdd, hsrt]
  constructor
  · rw [expandF]
    simp only [ha 1, expandF_con, h, hm]
    have e2 : mapO (expandF C 2) [.add [.var x, .var y], .add [.var x, .var y]] =
        some [.add [.var x, .var y], .add [.var x, .var y]] := by simp only [mapO, ha 0]
    rw [expandF_prod 2 (vs := [.add [.var x, .var y], .add [.var x, .var y]]) (t := []) rfl e2]
    simp [distr, scaleOf, conI, isOne, h1, Expr.terms, mkAdd, hsrt, mul, isZero]
  · have hx : ∀ z : Str, expandF C 3 (.prod [.add [.var x, .var y], .var z]) =
        some (.add [.prod [.var z, .var x], .prod [.var z, .var y]]) := by
      intro z
      have e2 : mapO (expandF C 2) [.add [.var x, .var y]] =
          some [.add [.var x, .var y]] := by simp only [mapO, ha 0]
      rw [expandF_prod 2 (vs := [.add [.var x, .var y], .var z]) (t := [.var z]) rfl e2]
      simp [distr, scaleOf, isOne, Expr.terms, mkAdd, hsrt, mul, isZero]
    rw [expandF_add]
    simp only [mapO, hx, Option.map_some, mkAdd, hsrt]

end ExpandEx

end Verif.Sym
