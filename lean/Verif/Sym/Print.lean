import Verif.Sym.Parse
import Verif.Sym.Algebra
import Verif.Sym.Subst

/-!
# Printing and reading back (properties C06 and C07)
-/

namespace Verif.Sym

variable {K : Type}

/-! ### The semantic actions -/

/-- The symbol tables the scanner consults (`mcScanner.l:93-113`): the functions with their number of
arguments (`UserFuncMap`) and the models (`ModelList`). Every other name is read as a
variable (nodes and parameters are variables, `mcParser.y:213-225`, `373-382`). -/
structure Tables where
  arity : Str → Option Nat
  isModel : Str → Bool

/-- `UnaryTable` and `BinaryTable` (`EquationObject.cc:29-44`). -/
def builtins : List Str :=
  ["simplify".toList, ['e', 'x', 'p'], "expand".toList, ['l', 'o', 'g'], "unscaledval".toList,
    "scale".toList, "unsignedval".toList, "sign".toList, ['p', 'o', 'w'], "diff".toList]

/-- The names the scanner returns as functions. -/
def Tables.fn (T : Tables) (s : Str) : Bool := builtins.contains s || (T.arity s).isSome

/-- Unary minus (`mcParser.y:173-179`): `con(-1) * $2`, simplified when the operand is a constant. -/
def negAct (C : Cfg K) (e : Expr K) : Expr K :=
  match e with
  | .con c => match mul C (conI C (-1)) (.con c) with
    | .prod vs => .con (foldConsts C (consts vs))
    | e' => e'
  | e => mul C (conI C (-1)) e

/-- `operator/` (`EquationObject.hh:612-622`). -/
def divAct (C : Cfg K) (x y : Expr K) : Expr K :=
  match x, y with
  | .con a, .con b =>
    if C.eqInt b 0 then .prod [.con a, .pow (.con b) (conI C (-1))]
    else .con (foldConsts C [a, C.inv b])
  | x, y => .prod [x, .pow y (conI C (-1))]

def binAct (C : Cfg K) : PBin → Expr K → Expr K → Expr K
  | .logic o, a, b => .blog o a b
  | .plus, a, b => plus C a b
  | .minus, a, b => minus C a b
  | .mul, a, b => mul C a b
  | .div, a, b => divAct C a b
  | .pow, a, b => .pow a b

/-- Function calls (`mcParser.y:181-210`, `319-343`). The functions that operate on expressions
(`simplify`, `diff`, ...) are not in printed text and are left out. A wrong number of
arguments is an error. -/
def callAct (T : Tables) (f : Str) (as : List (Expr K)) : Option (Expr K) :=
  if f = ['e', 'x', 'p'] then match as with
    | [a] => some (.exp a)
    | _ => none
  else if f = ['l', 'o', 'g'] then match as with
    | [a] => some (.log a)
    | _ => none
  else if f = ['p', 'o', 'w'] then match as with
    | [a, b] => some (.pow a b)
    | _ => none
  else if builtins.contains f then none
  else if T.arity f = some as.length then some (.user f as)
  else none

mutual
/-- The object the semantic actions of `mcParser.y:158-227` build, with `read` for
`atof`/`atoi`. -/
def act (C : Cfg K) (T : Tables) (read : Str → K) : Raw → Option (Expr K)
  | .num s => some (.con (read s))
  | .name s => some (if T.isModel s then .model s else .var s)
  | .call f as => match actL C T read as with
    | some es => callAct T f es
    | none => none
  | .neg r => (act C T read r).map (negAct C)
  | .pos r => act C T read r
  | .not r => (act C T read r).map .ulog
  | .bin o a b => match act C T read a, act C T read b with
    | some x, some y => some (binAct C o x y)
    | _, _ => none
def actL (C : Cfg K) (T : Tables) (read : Str → K) : List Raw → Option (List (Expr K))
  | [] => some []
  | r :: rs => match act C T read r, actL C T read rs with
    | some e, some es => some (e :: es)
    | _, _ => none
end

/-- Reading a text as an expression. -/
def parse (C : Cfg K) (T : Tables) (read : Str → K) (cs : Str) : Option (Expr K) :=
  match parseRaw T.fn cs with
  | some r => act C T read r
  | none => none

/-! ### Specification -/

/-- The expressions the engine holds: names as the scanner accepts them and as the tables know
them, functions applied to the declared number of arguments, sums of at least one term, products of
at least two factors. -/
inductive WF (T : Tables) (S : K → Prop) : Expr K → Prop
  | con {c} : S c → WF T S (.con c)
  | var {x} : isName x = true → x ≠ ['d', 'd', 't'] → T.fn x = false → T.isModel x = false →
      WF T S (.var x)
  | model {m} : isName m = true → m ≠ ['d', 'd', 't'] → T.fn m = false → T.isModel m = true →
      WF T S (.model m)
  | add {vs} : vs ≠ [] → (∀ v ∈ vs, WF T S v) → WF T S (.add vs)
  | prod {vs} : 2 ≤ vs.length → (∀ v ∈ vs, WF T S v) → WF T S (.prod vs)
  | exp {a} : WF T S a → WF T S (.exp a)
  | log {a} : WF T S a → WF T S (.log a)
  | pow {b e} : WF T S b → WF T S e → WF T S (.pow b e)
  | user {f as} : isName f = true → f ≠ ['d', 'd', 't'] → builtins.contains f = false →
      T.arity f = some as.length → as ≠ [] → (∀ v ∈ as, WF T S v) → WF T S (.user f as)
  | blog {op a b} : WF T S a → WF T S b → WF T S (.blog op a b)
  | ulog {a} : WF T S a → WF T S (.ulog a)

/-- The numbers in `S` (closed under change of sign, with 0 and 1) print faithfully: the text of a
non-negative one is a number of the grammar and reads back as the same number. In the code this holds
of the integers below a million, see `Sym/Format.lean`, and of most other numbers (16 significant
digits are printed, a few numbers need 17), but not of larger integers. -/
structure Cfg.Faithful (C : Cfg K) (S : K → Prop) (read : Str → K) : Prop where
  num : ∀ c, S c → C.isNeg c = false → isNumber (C.fmt c) = true
  val : ∀ c, S c → C.isNeg c = false → C.val (read (C.fmt c)) = C.val c
  ofInt : ∀ z, z = 0 ∨ z = 1 ∨ z = -1 → S (C.ofInt z)
  neg : ∀ c, S c → S (C.neg c)
  one : C.val (read ['1']) = 1

/-! ### The value of a parsed expression -/

mutual
/-- The value of a parsed expression. -/
noncomputable def rv (C : Cfg K) (T : Tables) (read : Str → K) (ρ : Env) : Raw → ℝ
  | .num s => C.val (read s)
  | .name s => if T.isModel s then ρ.m s else ρ.v s
  | .call f as => callVal ρ f (rvL C T read ρ as)
  | .neg r => - rv C T read ρ r
  | .pos r => rv C T read ρ r
  | .not r => notSem (rv C T read ρ r)
  | .bin o a b => binVal o (rv C T read ρ a) (rv C T read ρ b)
where
  callVal (ρ : Env) (f : Str) (as : List ℝ) : ℝ :=
    if f = ['e', 'x', 'p'] then Real.exp as.sum
    else if f = ['l', 'o', 'g'] then Real.log as.sum
    else if f = ['p', 'o', 'w'] then (as.getD 0 0) ^ (as.getD 1 0)
    else ρ.u f as
  binVal : PBin → ℝ → ℝ → ℝ
    | .logic o, a, b => o.sem a b
    | .plus, a, b => a + b
    | .minus, a, b => a - b
    | .mul, a, b => a * b
    | .div, a, b => a / b
    | .pow, a, b => a ^ b
noncomputable def rvL (C : Cfg K) (T : Tables) (read : Str → K) (ρ : Env) : List Raw → List ℝ
  | [] => []
  | r :: rs => rv C T read ρ r :: rvL C T read ρ rs
end

theorem rvL_eq (C : Cfg K) (T : Tables) (read : Str → K) (ρ : Env) :
    ∀ rs, rvL C T read ρ rs = rs.map (rv C T read ρ)
  | [] => rfl
  | r :: rs => by simp only [rvL, List.map_cons, rvL_eq C T read ρ rs]

section Act
variable {C : Cfg K} (hC : C.Exact) (T : Tables) (read : Str → K) (ρ : Env)
include hC

theorem eval_negAct (e : Expr K) : eval C ρ (negAct C e) = - eval C ρ e := by
  unfold negAct
  split
  · rename_i c
    have h := eval_mul hC ρ (conI C (-1)) (.con c)
    rw [eval_conI hC] at h
    split
    · rename_i vs hvs
      rw [hvs] at h
      rw [eval_con, val_foldConsts hC]
      -- all factors are constants
      have hn : nonconsts vs = [] := by
        have : vs = [conI C (-1), .con c] := by
          unfold mul at hvs
          split at hvs
          · cases hvs
          · split at hvs
            · cases hvs
            · split at hvs
              · cases hvs
              · simp only [conI] at hvs; cases hvs; rfl
        rw [this]; rfl
      rw [eval_prod, consts_nonconsts_prod, hn] at h
      simp at h ⊢
      exact h
    · rw [h]; simp
  · rw [eval_mul hC, eval_conI hC]; simp

theorem eval_divAct (x y : Expr K) : eval C ρ (divAct C x y) = eval C ρ x / eval C ρ y := by
  have aux : ∀ x y : Expr K, eval C ρ (.prod [x, .pow y (conI C (-1))])
      = eval C ρ x / eval C ρ y := by
    intro x y
    simp [eval_conI hC, Real.rpow_neg_one, div_eq_mul_inv]
  unfold divAct
  split
  · split
    · exact aux _ _
    · rename_i a b h
      have hb : C.val b ≠ 0 := fun h' => h ((hC.eqInt _ _).2 (by simpa using h'))
      rw [eval_con, val_foldConsts hC, eval_con, eval_con, div_eq_mul_inv]
      simp [hC.inv b hb]
  · exact aux _ _

theorem eval_binAct (o : PBin) (a b : Expr K) :
    eval C ρ (binAct C o a b) = rv.binVal o (eval C ρ a) (eval C ρ b) := by
  cases o with
  | logic o => simp [binAct, rv.binVal]
  | plus => simp [binAct, rv.binVal, eval_plus hC]
  | minus => simp [binAct, rv.binVal, eval_minus hC]
  | mul => simp [binAct, rv.binVal, eval_mul hC]
  | div => simp [binAct, rv.binVal, eval_divAct hC]
  | pow => simp [binAct, rv.binVal]

omit hC in
theorem eval_callAct (f : Str) (as : List (Expr K)) (e : Expr K) (h : callAct T f as = some e) :
    eval C ρ e = rv.callVal ρ f (as.map (eval C ρ)) := by
  unfold callAct at h
  unfold rv.callVal
  split at h
  · rename_i h1; rw [if_pos h1]
    split at h
    · cases h; simp
    · cases h
  · rename_i h1; rw [if_neg h1]
    split at h
    · rename_i h2; rw [if_pos h2]
      split at h
      · cases h; simp
      · cases h
    · rename_i h2; rw [if_neg h2]
      split at h
      · rename_i h3; rw [if_pos h3]
        split at h
        · cases h; simp
        · cases h
      · rename_i h3; rw [if_neg h3]
        split at h
        · cases h
        · split at h
          · cases h; simp
          · cases h

mutual
/-- The object built by the semantic actions has the value of the parsed expression. -/
theorem eval_act : ∀ (r : Raw) (e : Expr K), act C T read r = some e →
    eval C ρ e = rv C T read ρ r
  | .num s, e, h => by simp only [act] at h; cases h; simp [rv]
  | .name s, e, h => by
    simp only [act] at h
    cases h
    simp only [rv]
    split <;> simp
  | .call f as, e, h => by
    simp only [act] at h
    split at h
    · rename_i es hes
      rw [eval_callAct T ρ f es e h, eval_actL as es hes, rv]
    · cases h
  | .neg r, e, h => by
    simp only [act, Option.map_eq_some_iff] at h
    obtain ⟨e', h1, rfl⟩ := h
    rw [eval_negAct hC, eval_act r e' h1, rv]
  | .pos r, e, h => by
    simp only [act] at h
    rw [eval_act r e h, rv]
  | .not r, e, h => by
    simp only [act, Option.map_eq_some_iff] at h
    obtain ⟨e', h1, rfl⟩ := h
    rw [eval_ulog, eval_act r e' h1, rv]
  | .bin o a b, e, h => by
    simp only [act] at h
    split at h
    · rename_i x y hx hy
      cases h
      rw [eval_binAct hC, eval_act a x hx, eval_act b y hy, rv]
    · cases h
theorem eval_actL : ∀ (rs : List Raw) (es : List (Expr K)), actL C T read rs = some es →
    es.map (eval C ρ) = rvL C T read ρ rs
  | [], es, h => by simp only [actL] at h; cases h; simp [rvL]
  | r :: rs, es, h => by
    simp only [actL] at h
    split at h
    · rename_i e es' he hes
      cases h
      rw [List.map_cons, eval_act r e he, eval_actL rs es' hes, rvL]
    · cases h
end

end Act

/-! ### Well-formedness is kept by the engine's helpers -/

section WFLemmas
variable {T : Tables} {C : Cfg K} {S : K → Prop} {read : Str → K}

theorem WF.mkProd {vs : List (Expr K)} (hl : 2 ≤ vs.length) (h : ∀ v ∈ vs, WF T S v) :
    WF T S (mkProd C vs) :=
  .prod (by rw [(C.srt_perm vs).length_eq]; exact hl) fun v hv => h v ((C.srt_perm vs).mem_iff.1 hv)

theorem WF.mkAdd {vs : List (Expr K)} (hl : vs ≠ []) (h : ∀ v ∈ vs, WF T S v) :
    WF T S (mkAdd C vs) :=
  .add (fun h' => hl (by
    have := (C.srt_perm vs).length_eq
    rw [h'] at this
    exact List.length_eq_zero_iff.1 this.symm)) fun v hv => h v ((C.srt_perm vs).mem_iff.1 hv)

theorem WF.clone {e : Expr K} (h : WF T S e) : WF T S (clone C e) := by
  induction h with
  | con h => exact .con h
  | var h1 h2 h3 h4 => exact .var h1 h2 h3 h4
  | model h1 h2 h3 h4 => exact .model h1 h2 h3 h4
  | @add vs hne _ ih =>
    rw [Verif.Sym.clone, cloneL_eq]
    exact .mkAdd (by simpa using hne) (by simpa using ih)
  | @prod vs hl _ ih =>
    rw [Verif.Sym.clone, cloneL_eq]
    exact .mkProd (by simpa using hl) (by simpa using ih)
  | exp _ ih => exact .exp ih
  | log _ ih => exact .log ih
  | pow _ _ ihb ihe => exact .pow ihb ihe
  | @user f as h1 h2 h3 h4 h5 _ ih =>
    rw [Verif.Sym.clone, cloneL_eq]
    exact .user h1 h2 h3 (by simpa using h4) (by simpa using h5) (by simpa using ih)
  | blog _ _ iha ihb => exact .blog iha ihb
  | ulog _ ih => exact .ulog ih

theorem nonconsts_sub : ∀ (vs : List (Expr K)), ∀ v ∈ nonconsts vs, v ∈ vs
  | [], v, h => h
  | w :: vs, v, h => by
    have ih := nonconsts_sub vs v
    cases w <;> simp only [nonconsts, List.mem_cons] at h ⊢ <;> tauto

theorem consts_nonconsts_len : ∀ vs : List (Expr K),
    vs.length = (consts vs).length + (nonconsts vs).length
  | [] => rfl
  | v :: vs => by
    have ih := consts_nonconsts_len vs
    cases v <;> simp only [consts, nonconsts, List.length_cons] <;> omega

theorem WF.unscaled (hF : C.Faithful S read) {e : Expr K} (h : WF T S e) : WF T S (unscaled C e) := by
  cases h with
  | con c => exact .con (hF.ofInt 1 (by simp))
  | @prod vs hl hv =>
    simp only [Verif.Sym.unscaled]
    split
    · exact .con (hF.ofInt 1 (by simp))
    · rename_i v hvs
      exact hv v (nonconsts_sub _ v (by rw [hvs]; simp))
    · rename_i h1 h2
      refine .mkProd ?_ fun v hv' => hv v (nonconsts_sub _ v hv')
      match hn : nonconsts vs with
      | [] => exact absurd hn h1
      | [v] => exact absurd hn (h2 v)
      | _ :: _ :: _ => simp
  | var h1 h2 h3 h4 => exact .var h1 h2 h3 h4
  | model h1 h2 h3 h4 => exact .model h1 h2 h3 h4
  | add h1 h2 => exact .add h1 h2
  | exp h => exact .exp h
  | log h => exact .log h
  | pow h1 h2 => exact .pow h1 h2
  | user h1 h2 h3 h4 h5 h6 => exact .user h1 h2 h3 h4 h5 h6
  | blog h1 h2 => exact .blog h1 h2
  | ulog h => exact .ulog h

theorem WF.factors_mem {vs : List (Expr K)} (h : WF T S (.prod vs)) : ∀ v ∈ vs, WF T S v := by
  cases h with | prod _ h => exact h

theorem WF.terms_mem {vs : List (Expr K)} (h : WF T S (.add vs)) : ∀ v ∈ vs, WF T S v := by
  cases h with | add _ h => exact h

theorem consts_sub : ∀ (vs : List (Expr K)), ∀ c ∈ consts vs, .con c ∈ vs
  | [], v, h => by simp [consts] at h
  | w :: vs, v, h => by
    have ih := consts_sub vs v
    cases w <;> simp only [consts, List.mem_cons] at h ⊢ <;> (try simp) <;> tauto

theorem WF.const_mem {vs : List (Expr K)} (h : WF T S (.prod vs)) {c : K} (hc : c ∈ consts vs) :
    S c := by
  have := h.factors_mem _ (consts_sub vs c hc)
  cases this with | con h => exact h

theorem WF.two {vs : List (Expr K)} (h : WF T S (.prod vs)) : 2 ≤ vs.length := by
  cases h with | prod h _ => exact h

theorem WF.mul (hF : C.Faithful S read) {x y : Expr K} (hx : WF T S x) (hy : WF T S y) : WF T S (mul C x y) := by
  unfold Verif.Sym.mul
  split
  · exact .con (hF.ofInt 0 (by simp))
  · split
    · exact hy
    · split
      · exact hx
      · split
        · refine .mkProd ?_ ?_
          · have := hx.two; simp only [List.length_append]; omega
          · intro v hv
            rcases List.mem_append.1 hv with hv | hv
            · exact hx.factors_mem v hv
            · exact hy.factors_mem v hv
        · refine .mkProd ?_ ?_
          · have := hx.two; simp only [List.length_append]; omega
          · intro v hv
            rcases List.mem_append.1 hv with hv | hv
            · exact hx.factors_mem v hv
            · rw [List.mem_singleton.1 hv]; exact hy
        · refine .mkProd ?_ ?_
          · have := hy.two; simp only [List.length_cons]; omega
          · intro v hv
            rcases List.mem_cons.1 hv with rfl | hv
            · exact hx
            · exact hy.factors_mem v hv
        · refine .prod (by simp) ?_
          intro v hv
          simp only [List.mem_cons, List.not_mem_nil, or_false] at hv
          rcases hv with rfl | rfl
          · exact hx
          · exact hy

theorem WF.plus {x y : Expr K} (hx : WF T S x) (hy : WF T S y) : WF T S (plus C x y) := by
  unfold Verif.Sym.plus
  split
  · exact hy
  · split
    · exact hx
    · split
      · refine .mkAdd ?_ ?_
        · cases hx with | add h _ => simp [h]
        · intro v hv
          rcases List.mem_append.1 hv with hv | hv
          · exact hx.terms_mem v hv
          · exact hy.terms_mem v hv
      · refine .mkAdd (by simp) ?_
        intro v hv
        rcases List.mem_append.1 hv with hv | hv
        · exact hx.terms_mem v hv
        · rw [List.mem_singleton.1 hv]; exact hy
      · refine .mkAdd (by simp) ?_
        intro v hv
        rcases List.mem_cons.1 hv with rfl | hv
        · exact hx
        · exact hy.terms_mem v hv
      · refine .add (by simp) ?_
        intro v hv
        simp only [List.mem_cons, List.not_mem_nil, or_false] at hv
        rcases hv with rfl | rfl
        · exact hx
        · exact hy

theorem WF.minus (hF : C.Faithful S read) {x y : Expr K} (hx : WF T S x) (hy : WF T S y) : WF T S (minus C x y) :=
  .plus hx (.mul hF (.con (hF.ofInt (-1) (by simp))) hy)

theorem WF.unsigned (hF : C.Faithful S read) {e : Expr K} (h : WF T S e) : WF T S (unsigned C e) := by
  unfold Verif.Sym.unsigned
  split
  · cases h with | con h => split <;> [exact .con (hF.neg _ h); exact .con h]
  · rename_i vs
    split
    · rename_i c hc
      split
      · have hu := h.unscaled hF
        have hc' : S c := h.const_mem (by rw [hc]; simp)
        generalize Verif.Sym.unscaled C (.prod vs) = u at hu
        unfold unsignedProd
        split
        · cases hu with | con h => split <;> [exact .con (hF.neg _ h); exact .con h]
        · split
          · exact hu
          · rename_i us _
            refine .mkProd ?_ ?_
            · have := hu.two; rw [cloneL_eq]; simp only [List.length_cons, List.length_map]; omega
            · intro v hv
              rcases List.mem_cons.1 hv with rfl | hv
              · exact .con (hF.neg _ hc')
              · rw [cloneL_eq] at hv
                obtain ⟨w, hw, rfl⟩ := List.mem_map.1 hv
                exact (hu.factors_mem w hw).clone
        · split
          · exact hu
          · exact .mul hF (.con (hF.neg _ hc')) hu
      · exact h
    · exact h
  · exact h

theorem WF.negSign_nonconsts {vs : List (Expr K)} (h : WF T S (.prod vs))
    (hs : negSign C (.prod vs) = true) : nonconsts vs ≠ [] := by
  intro hn
  simp only [negSign] at hs
  split at hs
  · rename_i c hc
    have := consts_nonconsts_len vs
    rw [hc, hn] at this
    have := h.two
    simp at *
    omega
  · cases hs

end WFLemmas

/-! ### Trees of lists -/

theorem OKArgs_ofList {fn} {sep : Str} (hsep : sep = [','] ∨ sep = [',', ' ']) :
    ∀ ts : List PTree, (∀ t ∈ ts, OKTree fn t) → OKArgs fn sep (.ofList ts)
  | [], _ => by simp only [PArgs.ofList, OKArgs]
  | t :: ts, h => by
    rw [PArgs.ofList, OKArgs]
    exact ⟨h t (by simp), .inr hsep, OKArgs_ofList hsep ts fun t' ht => h t' (by simp [ht])⟩

theorem rawArgs_ofList : ∀ ts : List PTree, rawArgs (.ofList ts) = ts.map raw
  | [] => by simp only [PArgs.ofList, rawArgs, List.map_nil]
  | t :: ts => by simp only [PArgs.ofList, rawArgs, List.map_cons, rawArgs_ofList ts]

theorem OKItems_ofList {fn} {q : Nat} : ∀ ts : List (BOp × PTree),
    (∀ t ∈ ts, t.1.bin.prec = q ∧ OKTree fn t.2) → OKItems fn q (.ofList ts)
  | [], _ => by simp only [PItems.ofList, OKItems]
  | (o, t) :: ts, h => by
    rw [PItems.ofList, OKItems]
    exact ⟨(h (o, t) (by simp)).1, (h (o, t) (by simp)).2,
      OKItems_ofList ts fun t' ht => h t' (by simp [ht])⟩

section RV
variable (C : Cfg K) (T : Tables) (read : Str → K) (ρ : Env)

theorem rv_mulItems (x : Raw) (ts : List PTree) :
    rv C T read ρ (rawItems x (.ofList (ts.map fun t => (.mul, t))))
      = rv C T read ρ x * (ts.map fun t => rv C T read ρ (raw t)).prod := by
  induction ts generalizing x with
  | nil => simp [PItems.ofList, rawItems]
  | cons t ts ih =>
    rw [List.map_cons, PItems.ofList, rawItems, ih, List.map_cons, List.prod_cons, rv, BOp.bin]
    simp only [rv.binVal]
    ring

theorem rv_addItems (x : Raw) (ts : List (Bool × PTree)) :
    rv C T read ρ (rawItems x
        (.ofList (ts.map fun st => (if st.1 then BOp.minus else BOp.plus, st.2))))
      = rv C T read ρ x
        + (ts.map fun st => if st.1 then - rv C T read ρ (raw st.2)
            else rv C T read ρ (raw st.2)).sum := by
  induction ts generalizing x with
  | nil => simp [PItems.ofList, rawItems]
  | cons t ts ih =>
    rw [List.map_cons, PItems.ofList, rawItems, ih, List.map_cons, List.sum_cons, rv]
    cases t.1 <;> simp [BOp.bin, rv.binVal] <;> ring

/-- What is meant by "acts": the semantic actions succeed. -/
def Acts (r : Raw) : Prop := ∃ e, act C T read r = some e

theorem acts_items {x : Raw} (hx : Acts C T read x) :
    ∀ ts : List (BOp × PTree), (∀ t ∈ ts, Acts C T read (raw t.2)) →
      Acts C T read (rawItems x (.ofList ts)) := by
  intro ts
  induction ts generalizing x with
  | nil => intro _; simpa [PItems.ofList, rawItems] using hx
  | cons t ts ih =>
    intro h
    rw [PItems.ofList, rawItems]
    apply ih
    · obtain ⟨e, he⟩ := hx
      obtain ⟨e', he'⟩ := h t (by simp)
      exact ⟨_, by rw [act, he, he']⟩
    · exact fun t' ht => h t' (by simp [ht])

theorem acts_list : ∀ rs : List Raw, (∀ r ∈ rs, Acts C T read r) →
    ∃ es, actL C T read rs = some es ∧ es.length = rs.length
  | [], _ => ⟨[], rfl, rfl⟩
  | r :: rs, h => by
    obtain ⟨e, he⟩ := h r (by simp)
    obtain ⟨es, hes, hl⟩ := acts_list rs fun r' hr => h r' (by simp [hr])
    exact ⟨e :: es, by simp only [actL, he, hes], by simp [hl]⟩

end RV

/-! ### The printed form of an expression -/

/-- The printed form of a well-formed expression can be read, and what is read has its value. -/
structure Good (C : Cfg K) (T : Tables) (read : Str → K) (ρ : Env) (e : Expr K) : Prop where
  ok : OKTree T.fn (ptree C e)
  acts : Acts C T read (raw (ptree C e))
  val : rv C T read ρ (raw (ptree C e)) = eval C ρ e

theorem raw_minus_one {T : Tables} {t : PTree} (h : OKTree T.fn t)
    (hr : render t = ['(', '-', '1', ')']) : raw t = .neg (.num ['1']) := by
  have h1 := parseRaw_render t h
  have h2 : OKTree T.fn (.paren .neg (.num ['1']) .nil) := by
    simp only [OKTree, OKItems]
    exact ⟨by decide, 0, trivial⟩
  have h3 := parseRaw_render _ h2
  have h4 : render (.paren .neg (.num ['1']) .nil) = render t := by
    rw [hr]; simp [render, renderItems, UOp.text]
  rw [h4, h1] at h3
  simpa [raw, rawItems, UOp.raw] using h3

theorem good {C : Cfg K} (hC : C.Exact) {T : Tables} {S : K → Prop} {read : Str → K} (hF : C.Faithful S read)
    (ρ : Env) : ∀ (n : Nat) (e : Expr K), size e ≤ n → WF T S e → Good C T read ρ e := by
  intro n
  induction n with
  | zero => intro e h; have := size_pos e; omega
  | succ n IH =>
    intro e hn hw
    have fnExp : T.fn ['e', 'x', 'p'] = true := by
      simp only [Tables.fn, Bool.or_eq_true]; left; decide
    have fnLog : T.fn ['l', 'o', 'g'] = true := by
      simp only [Tables.fn, Bool.or_eq_true]; left; decide
    have fnPow : T.fn ['p', 'o', 'w'] = true := by
      simp only [Tables.fn, Bool.or_eq_true]; left; decide
    cases hw with
    | @con c hc =>
      constructor
      all_goals rw [ptree_con]
      · split
        · rename_i h
          have hp : C.isNeg (C.neg c) = false := by
            rw [hC.isNeg] at h
            rw [← Bool.not_eq_true, hC.isNeg, hC.neg]; linarith
          simp only [OKTree, OKItems]
          exact ⟨hF.num _ (hF.neg _ hc) hp, 0, trivial⟩
        · rename_i h
          simp only [OKTree]
          exact hF.num _ hc (by simpa using h)
      · split
        · exact ⟨_, by simp only [raw, rawItems, UOp.raw, act, Option.map_some]; rfl⟩
        · exact ⟨_, by simp only [raw, act]; rfl⟩
      · split
        · rename_i h
          have hp : C.isNeg (C.neg c) = false := by
            rw [hC.isNeg] at h
            rw [← Bool.not_eq_true, hC.isNeg, hC.neg]; linarith
          simp only [raw, rawItems, UOp.raw, rv, hF.val _ (hF.neg _ hc) hp, hC.neg, eval_con, neg_neg]
        · rename_i h
          simp only [raw, rv, hF.val _ hc (by simpa using h), eval_con]
    | var h1 h2 h3 h4 =>
      constructor
      all_goals rw [ptree_var]
      · simp only [OKTree]; exact ⟨h1, h2, h3⟩
      · exact ⟨_, by simp only [raw, act]; rfl⟩
      · simp [raw, rv, h4]
    | model h1 h2 h3 h4 =>
      constructor
      all_goals rw [ptree_model]
      · simp only [OKTree]; exact ⟨h1, h2, h3⟩
      · exact ⟨_, by simp only [raw, act]; rfl⟩
      · simp [raw, rv, h4]
    | @add vs hne hv =>
      -- every term
      let g : Expr K → Bool × PTree := fun v =>
        if negSign C v then (true, ptree C (unsigned C v)) else (false, ptree C v)
      have hg : ∀ v ∈ vs, OKTree T.fn (g v).2 ∧ Acts C T read (raw (g v).2) ∧
          (if (g v).1 then - rv C T read ρ (raw (g v).2) else rv C T read ρ (raw (g v).2))
            = eval C ρ v := by
        intro v hv'
        have hs : size v ≤ n := by
          have := size_le_sizeL hv'
          simp only [size] at hn; omega
        by_cases hneg : negSign C v = true
        · have hgv : g v = (true, ptree C (unsigned C v)) := by simp only [g, hneg, if_true]
          have := IH (unsigned C v) (le_trans (size_unsigned C v) hs) ((hv v hv').unsigned hF)
          rw [hgv]
          refine ⟨this.ok, this.acts, ?_⟩
          rw [if_pos rfl, this.val, eval_unsigned hC ρ v hneg, neg_neg]
          rintro us rfl
          exact (hv _ hv').negSign_nonconsts hneg
        · have hgv : g v = (false, ptree C v) := by simp only [g, hneg, if_false]; rfl
          have := IH v hs (hv v hv')
          rw [hgv]
          exact ⟨this.ok, this.acts, this.val⟩
      have ht : ptree C (.add vs) = addTree (vs.map g) := ptree_add C vs
      match vs, hne with
      | v :: vs, _ =>
        rw [List.map_cons] at ht
        have hu : addTree (g v :: vs.map g) = .paren (if (g v).1 then .neg else .none) (g v).2
            (.ofList ((vs.map g).map fun st =>
              (if st.1 then BOp.minus else BOp.plus, st.2))) := rfl
        rw [hu] at ht
        have hd : rv C T read ρ ((if (g v).1 then UOp.neg else .none).raw (raw (g v).2))
            = eval C ρ v := by
          rw [← (hg v (by simp)).2.2]
          cases (g v).1 <;> simp [UOp.raw, rv]
        constructor
        · rw [ht]
          simp only [OKTree]
          refine ⟨(hg v (by simp)).1, 5, OKItems_ofList _ ?_⟩
          intro t ht'
          simp only [List.map_map, List.mem_map, Function.comp_apply] at ht'
          obtain ⟨w, hw, rfl⟩ := ht'
          refine ⟨?_, (hg w (by simp [hw])).1⟩
          cases (g w).1 <;> rfl
        · rw [ht, raw]
          apply acts_items
          · obtain ⟨e, he⟩ := (hg v (by simp)).2.1
            cases (g v).1
            · exact ⟨e, he⟩
            · exact ⟨_, by simp only [if_true, UOp.raw, act, he, Option.map_some]; rfl⟩
          · intro t ht'
            simp only [List.map_map, List.mem_map, Function.comp_apply] at ht'
            obtain ⟨w, hw, rfl⟩ := ht'
            exact (hg w (by simp [hw])).2.1
        · rw [ht, raw, rv_addItems, hd, eval_add, List.map_cons, List.sum_cons, List.map_map]
          congr 2
          exact List.map_congr_left fun w hw => (hg w (by simp [hw])).2.2
    | @prod vs hl hv =>
      have hg : ∀ v ∈ vs, Good C T read ρ v := by
        intro v hv'
        have := size_le_sizeL hv'
        simp only [size] at hn
        exact IH v (by omega) (hv v hv')
      match vs, hl with
      | v :: v1 :: vs, _ =>
        have g0 := hg v (by simp)
        have g1 := hg v1 (by simp)
        have hm : (vs.map (ptree C)).map (fun t => rv C T read ρ (raw t)) = vs.map (eval C ρ) := by
          rw [List.map_map]
          exact List.map_congr_left fun w hw => (hg w (by simp [hw])).val
        have ht : ptree C (.prod (v :: v1 :: vs)) =
            if render (ptree C v) = ['(', '-', '1', ')'] then
              .paren .neg (ptree C v1) (.ofList ((vs.map (ptree C)).map fun t => (.mul, t)))
            else .paren .none (ptree C v)
              (.ofList ((ptree C v1 :: vs.map (ptree C)).map fun t => (.mul, t))) := by
          rw [ptree_prod]; rfl
        by_cases hr : render (ptree C v) = ['(', '-', '1', ')']
        · rw [if_pos hr] at ht
          have hv1 : eval C ρ v = -1 := by
            rw [← g0.val, raw_minus_one g0.ok hr]
            simp [rv, hF.one]
          constructor
          · rw [ht]; simp only [OKTree]
            refine ⟨g1.ok, 6, OKItems_ofList _ ?_⟩
            intro t ht'
            simp only [List.map_map, List.mem_map, Function.comp_apply] at ht'
            obtain ⟨w, hw, rfl⟩ := ht'
            exact ⟨rfl, (hg w (by simp [hw])).ok⟩
          · rw [ht, raw]
            apply acts_items
            · obtain ⟨e, he⟩ := g1.acts
              exact ⟨_, by simp only [UOp.raw, act, he, Option.map_some]; rfl⟩
            · intro t ht'
              simp only [List.map_map, List.mem_map, Function.comp_apply] at ht'
              obtain ⟨w, hw, rfl⟩ := ht'
              exact (hg w (by simp [hw])).acts
          · rw [ht, raw, rv_mulItems, hm, UOp.raw, rv, g1.val, eval_prod]
            simp only [List.map_cons, List.prod_cons, hv1]; ring
        · rw [if_neg hr] at ht
          constructor
          · rw [ht]; simp only [OKTree]
            refine ⟨g0.ok, 6, OKItems_ofList _ ?_⟩
            intro t ht'
            rw [List.map_cons, List.mem_cons] at ht'
            rcases ht' with rfl | ht'
            · exact ⟨rfl, g1.ok⟩
            · simp only [List.map_map, List.mem_map, Function.comp_apply] at ht'
              obtain ⟨w, hw, rfl⟩ := ht'
              exact ⟨rfl, (hg w (by simp [hw])).ok⟩
          · rw [ht, raw]
            apply acts_items
            · exact g0.acts
            · intro t ht'
              rw [List.map_cons, List.mem_cons] at ht'
              rcases ht' with rfl | ht'
              · exact g1.acts
              · simp only [List.map_map, List.mem_map, Function.comp_apply] at ht'
                obtain ⟨w, hw, rfl⟩ := ht'
                exact (hg w (by simp [hw])).acts
          · rw [ht, raw, rv_mulItems, List.map_cons, hm, UOp.raw, g0.val, g1.val, eval_prod]
            simp only [List.map_cons, List.prod_cons]
    | exp h =>
      simp only [size] at hn
      have g := IH _ (by omega) h
      constructor
      all_goals rw [ptree_exp]
      · simp only [OKTree, OKArgs]
        exact ⟨by decide, by decide, fnExp, by simp, g.ok, .inl trivial, trivial⟩
      · obtain ⟨e, he⟩ := g.acts
        exact ⟨_, by simp only [raw, rawArgs, act, actL, he, callAct, if_true]; rfl⟩
      · simp [raw, rawArgs, rv, rvL, rv.callVal, g.val]
    | log h =>
      simp only [size] at hn
      have g := IH _ (by omega) h
      constructor
      all_goals rw [ptree_log]
      · simp only [OKTree, OKArgs]
        exact ⟨by decide, by decide, fnLog, by simp, g.ok, .inl trivial, trivial⟩
      · obtain ⟨e, he⟩ := g.acts
        refine ⟨.log e, ?_⟩
        simp only [raw, rawArgs, act, actL, he, callAct]
        rw [if_neg (by decide), if_pos trivial]
      · simp [raw, rawArgs, rv, rvL, rv.callVal, g.val]
    | pow hb he =>
      simp only [size] at hn
      have gb := IH _ (by omega) hb
      have ge := IH _ (by omega) he
      constructor
      all_goals rw [ptree_pow]
      · simp only [OKTree, OKArgs]
        exact ⟨by decide, by decide, fnPow, by simp, gb.ok, .inr (.inl trivial), ge.ok,
          .inl trivial, trivial⟩
      · obtain ⟨x, hx⟩ := gb.acts
        obtain ⟨y, hy⟩ := ge.acts
        refine ⟨.pow x y, ?_⟩
        simp only [raw, rawArgs, act, actL, hx, hy, callAct]
        rw [if_neg (by decide), if_neg (by decide), if_pos trivial]
      · simp [raw, rawArgs, rv, rvL, rv.callVal, gb.val, ge.val]
    | @user f as h1 h2 h3 h4 h5 hv =>
      have hg : ∀ v ∈ as, Good C T read ρ v := by
        intro v hv'
        have := size_le_sizeL hv'
        simp only [size] at hn
        exact IH v (by omega) (hv v hv')
      have hfn : T.fn f = true := by simp [Tables.fn, h4]
      have hne : f ≠ ['e', 'x', 'p'] ∧ f ≠ ['l', 'o', 'g'] ∧ f ≠ ['p', 'o', 'w'] := by
        refine ⟨?_, ?_, ?_⟩ <;> rintro rfl <;> revert h3 <;> decide
      constructor
      all_goals rw [ptree_user]
      · simp only [OKTree]
        refine ⟨h1, h2, hfn, ?_, OKArgs_ofList (.inr rfl) _ ?_⟩
        · cases as with
          | nil => exact absurd rfl h5
          | cons a as => simp [PArgs.ofList]
        · intro t ht
          obtain ⟨v, hv', rfl⟩ := List.mem_map.1 ht
          exact (hg v hv').ok
      · rw [raw, rawArgs_ofList]
        obtain ⟨es, hes, hl⟩ := acts_list C T read ((as.map (ptree C)).map raw) (by
          intro r hr
          simp only [List.map_map, List.mem_map, Function.comp_apply] at hr
          obtain ⟨v, hv', rfl⟩ := hr
          exact (hg v hv').acts)
        refine ⟨.user f es, ?_⟩
        simp only [act, hes, callAct]
        rw [if_neg hne.1, if_neg hne.2.1, if_neg hne.2.2, h3, if_neg (by simp), if_pos]
        rw [h4, hl]; simp
      · rw [raw, rawArgs_ofList, rv, rvL_eq, rv.callVal, if_neg hne.1, if_neg hne.2.1,
          if_neg hne.2.2, eval_user, List.map_map, List.map_map]
        congr 1
        exact List.map_congr_left fun v hv' => (hg v hv').val
    | blog ha hb =>
      simp only [size] at hn
      have ga := IH _ (by omega) ha
      have gb := IH _ (by omega) hb
      constructor
      all_goals rw [ptree_blog]
      · simp only [OKTree, OKItems]
        exact ⟨ga.ok, _, rfl, gb.ok, trivial⟩
      · obtain ⟨x, hx⟩ := ga.acts
        obtain ⟨y, hy⟩ := gb.acts
        exact ⟨_, by simp only [raw, rawItems, UOp.raw, act, hx, hy]; rfl⟩
      · simp [raw, rawItems, UOp.raw, rv, BOp.bin, rv.binVal, ga.val, gb.val]
    | ulog ha =>
      simp only [size] at hn
      have ga := IH _ (by omega) ha
      constructor
      all_goals rw [ptree_ulog]
      · simp only [OKTree, OKItems]
        exact ⟨ga.ok, 0, trivial⟩
      · obtain ⟨x, hx⟩ := ga.acts
        exact ⟨_, by simp only [raw, rawItems, UOp.raw, act, hx, Option.map_some]; rfl⟩
      · simp [raw, rawItems, UOp.raw, rv, ga.val]

/-! ### The properties -/

/-- **C07.** The text printed for an expression, when read again, denotes an expression with the same
value in every environment. -/
theorem parse_print {C : Cfg K} (hC : C.Exact) {T : Tables} {S : K → Prop} {read : Str → K}
    (hF : C.Faithful S read) {e : Expr K} (he : WF T S e) :
    ∃ e', parse C T read (str C e) = some e' ∧ ∀ ρ, eval C ρ e' = eval C ρ e := by
  have g := fun ρ => good hC hF ρ (size e) e le_rfl he
  obtain ⟨e', h'⟩ := (g ⟨fun _ => 0, fun _ => 0, fun _ _ => 0⟩).acts
  refine ⟨e', ?_, fun ρ => ?_⟩
  · unfold parse str
    rw [parseRaw_render _ (g ⟨fun _ => 0, fun _ => 0, fun _ _ => 0⟩).ok]
    exact h'
  · rw [eval_act hC T read ρ _ _ h', (g ρ).val]

/-- **C06.** Two expressions that print the same text have the same value in every environment. -/
theorem eval_of_str_eq {C : Cfg K} (hC : C.Exact) {T : Tables} {S : K → Prop} {read : Str → K}
    (hF : C.Faithful S read) {a b : Expr K} (ha : WF T S a) (hb : WF T S b) (h : str C a = str C b)
    (ρ : Env) : eval C ρ a = eval C ρ b := by
  have ga := good hC hF ρ (size a) a le_rfl ha
  have gb := good hC hF ρ (size b) b le_rfl hb
  have h1 := parseRaw_render _ ga.ok
  have h2 := parseRaw_render _ gb.ok
  unfold str at h
  rw [h, h2] at h1
  have h3 : raw (ptree C b) = raw (ptree C a) := Option.some.inj h1
  rw [← ga.val, ← gb.val, h3]

end Verif.Sym
