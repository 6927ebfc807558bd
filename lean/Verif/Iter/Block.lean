import Mathlib.Data.Real.Basic
import Mathlib.Data.List.Sort
import Mathlib.Data.List.Perm.Subperm
import Mathlib.Data.List.Dedup
import Mathlib.Data.List.Induction
import Mathlib.Tactic.Linarith
import Mathlib.Tactic.NormNum

/-!
# `BlockPreconditioner` (`BlockPreconditioner.cc`)

The matrix that is factored as preconditioner of `GMRES`: small entries are left out. Values are real numbers (the
complex case is not reached, `IterativeLinearSolver::ACSolveImpl` is not implemented).
-/

namespace Verif.Iter

/-- A region (`Region::GetBaseEquationNumber`, `GetNumberEquations`, `GetNumberNodes`); `base` is `none` for
`size_t(-1)`. -/
structure RegEq where
  base : Option ℕ
  neqns : ℕ
  nnodes : ℕ

/-- `BlockInfo` (`BlockPreconditioner.hh:20-60`) -/
structure Block where
  emin : ℕ
  emax : ℕ
  rmin : ℕ
  rmax : ℕ
deriving DecidableEq

/-- The blocks of a region (`BlockPreconditioner.cc:86-103`); `rmax` is `GetMaxEquationNumber`
(`Region.cc:1271-1279`). -/
def RegEq.blocks (r : RegEq) : List Block :=
  match r.base with
  | none => []
  | some b => (List.range r.neqns).map fun i =>
    { emin := b + i * r.nnodes, emax := b + i * r.nnodes + r.nnodes - 1, rmin := b, rmax := b + r.neqns * r.nnodes - 1 }

/-- `blockInfoList_` after the sort (`BlockPreconditioner.cc:65-109`). -/
def blockList (rs : List RegEq) : List Block := (rs.flatMap RegEq.blocks).mergeSort fun a b => decide (a.emin ≤ b.emin)

/-- `equationNumberToBlockMap_` (`BlockPreconditioner.cc:111-120`); `none` is `size_t(-1)`. Its length is not
modelled. -/
def blockMap (bs : List Block) : ℕ → Option ℕ :=
  bs.zipIdx.foldl (fun f p e => if p.1.emin ≤ e ∧ e ≤ p.1.emax then some p.2 else f e) fun _ => none

/-- `RowColVal` -/
structure Entry where
  r : ℕ
  c : ℕ
  v : ℝ

/-- What is done with an entry (`BlockPreconditioner.cc:148-189`). -/
inductive Cls
  | keep
  | group (rb cb : Option ℕ)
  /-- the list of blocks is read at `size_t(-1)` -/
  | undef
deriving DecidableEq

def classify (bs : List Block) (e : Entry) : Cls :=
  let cb := blockMap bs e.c
  let rb := blockMap bs e.r
  if rb = cb then .group rb cb
  else match rb.bind fun i => bs[i]? with
    | none => .undef
    | some b => if ¬ (b.rmin ≤ e.c ∧ e.c ≤ b.rmax) then .keep else .group rb cb

/-- `SpecialSort` (`BlockPreconditioner.cc:31-44`) -/
def before (x y : Entry) : Prop := x.r < y.r ∨ (x.r = y.r ∧ |y.v| < |x.v|)

/-- Any function that does what `std::sort` promises. -/
def SortOK (sort : List Entry → List Entry) : Prop :=
  ∀ l, (sort l).Perm l ∧ (sort l).Pairwise fun x y => ¬ before y x

/-- The loop over the sorted entries of a block (`BlockPreconditioner.cc:203-235`), with `last_row`,
`drop_tolerance` and `done_with_row`. -/
noncomputable def dropLoop : List Entry → Option ℕ → ℝ → Bool → List Entry
  | [], _, _, _ => []
  | e :: l, last, tol, done =>
    let tol := if last ≠ some e.r then (1 / 2) * |e.v| else tol
    let done := if last ≠ some e.r then false else done
    if done then dropLoop l (some e.r) tol true
    else if |e.v| < tol ∧ e.r ≠ e.c then dropLoop l (some e.r) tol true
    else e :: dropLoop l (some e.r) tol false

/-- `ProcessBlockInfo` (`BlockPreconditioner.cc:122-263`): the entries that are added to `block_matrix_`. The
order of the blocks is that of their first entries and not that of the maps: it does not matter for the sum of
entries. -/
noncomputable def process (sort : List Entry → List Entry) (bs : List Block) (es : List Entry) : Option (List Entry) :=
  if es.any (fun e => classify bs e = .undef) then none
  else
    let keys := ((es.map (classify bs)).filter (· ≠ .keep)).dedup
    some (es.filter (fun e => classify bs e = .keep) ++
      keys.flatMap fun k => dropLoop (sort (es.filter fun e => classify bs e = k)) none 0 false)

/-! ### The loop -/

theorem dropLoop_sublist (l : List Entry) : ∀ last tol done, (dropLoop l last tol done).Sublist l := by
  induction l with
  | nil => intro _ _ _; exact List.Sublist.refl _
  | cons e l ih =>
    intro last tol done
    simp only [dropLoop]
    split_ifs <;> first | exact (ih _ _ _).cons _ | exact (ih _ _ _).cons_cons _

/-- An entry that is not smaller than half of the first of its row is kept. -/
theorem dropLoop_keep (l : List Entry) : ∀ (last : Option ℕ) (tol : ℝ) (done : Bool),
    l.Pairwise (fun x y => ¬ before y x) →
    ∀ e ∈ l, (∀ f ∈ l, f.r = e.r → |f.v| / 2 ≤ |e.v|) → (last = some e.r → done = false ∧ tol ≤ |e.v|) →
      (∀ n, last = some n → ∀ f ∈ l, n ≤ f.r) → e ∈ dropLoop l last tol done := by
  induction l with
  | nil => intro _ _ _ _ e he; simp at he
  | cons a l ih =>
    intro last tol done hs e he hmax hlast hle
    obtain ⟨hs1, hs2⟩ := List.pairwise_cons.1 hs
    have hrow : ∀ f ∈ l, a.r ≤ f.r := by
      intro f hf
      have := hs1 f hf
      simp only [before, not_or, not_lt] at this
      exact this.1
    rcases List.mem_cons.1 he with rfl | hel
    · -- the entry itself
      simp only [dropLoop]
      by_cases hl : last = some e.r
      · obtain ⟨h1, h2⟩ := hlast hl
        simp only [hl, ne_eq, not_true, if_false, h1, Bool.false_eq_true]
        rw [if_neg (by intro h; linarith [h.1])]
        simp
      · simp only [ne_eq, hl, not_false_eq_true, if_true, Bool.false_eq_true, if_false]
        rw [if_neg (by intro h; have := abs_nonneg e.v; linarith [h.1])]
        simp
    · -- a later entry
      simp only [dropLoop]
      have hle' : ∀ n, some a.r = some n → ∀ f ∈ l, n ≤ f.r := by
        intro n hn f hf; cases hn; exact hrow f hf
      have hmax' : ∀ f ∈ l, f.r = e.r → |f.v| / 2 ≤ |e.v| := fun f hf => hmax f (List.mem_cons_of_mem _ hf)
      by_cases hae : a.r = e.r
      · have hva := hmax a (by simp) hae
        have hva2 : |e.v| ≤ |a.v| := by
          have := hs1 e hel
          simp only [before, not_or, not_and, not_lt] at this
          exact this.2 hae.symm
        by_cases hl : last = some a.r
        · obtain ⟨h1, h2⟩ := hlast (by rw [hl, hae])
          simp only [hl, ne_eq, not_true, if_false, h1, Bool.false_eq_true]
          rw [if_neg (by intro h; linarith [h.1])]
          exact List.mem_cons_of_mem _ (ih _ _ _ hs2 e hel hmax' (fun _ => ⟨rfl, h2⟩) hle')
        · simp only [ne_eq, hl, not_false_eq_true, if_true, Bool.false_eq_true, if_false]
          rw [if_neg (by intro h; have := abs_nonneg a.v; linarith [h.1])]
          exact List.mem_cons_of_mem _ (ih _ _ _ hs2 e hel hmax' (fun _ => ⟨rfl, by linarith⟩) hle')
      · have hnew : ∀ t d, e ∈ dropLoop l (some a.r) t d := fun t d =>
          ih _ t d hs2 e hel hmax' (fun h => absurd (Option.some.inj h) hae) hle'
        split_ifs <;> first | exact hnew _ _ | exact List.mem_cons_of_mem _ (hnew _ _)

/-- What stays from a row is on the diagonal or not small. -/
theorem dropLoop_mem (l : List Entry) : ∀ (last : Option ℕ) (tol : ℝ) (done : Bool),
    l.Pairwise (fun x y => ¬ before y x) → (∀ n, last = some n → ∀ f ∈ l, n ≤ f.r) →
    ∀ e ∈ dropLoop l last tol done, e.r = e.c ∨
      ((∀ f ∈ l, some f.r ≠ last → f.r = e.r → |f.v| / 2 ≤ |e.v|) ∧ (last = some e.r → tol ≤ |e.v|)) := by
  induction l with
  | nil => intro _ _ _ _ _ e he; simp [dropLoop] at he
  | cons a l ih =>
    intro last tol done hs hle e he
    obtain ⟨hs1, hs2⟩ := List.pairwise_cons.1 hs
    have hrow : ∀ f ∈ l, a.r ≤ f.r := by
      intro f hf
      have := hs1 f hf
      simp only [before, not_or, not_lt] at this
      exact this.1
    have hval : ∀ f ∈ l, f.r = a.r → |f.v| ≤ |a.v| := by
      intro f hf hfa
      have := hs1 f hf
      simp only [before, not_or, not_and, not_lt] at this
      exact this.2 hfa
    have hle' : ∀ n, some a.r = some n → ∀ f ∈ l, n ≤ f.r := by
      intro n hn f hf; cases hn; exact hrow f hf
    -- an entry that comes later
    have later : ∀ d, e ∈ dropLoop l (some a.r) (if last ≠ some a.r then (1 / 2) * |a.v| else tol) d → e.r = e.c ∨
        ((∀ f ∈ a :: l, some f.r ≠ last → f.r = e.r → |f.v| / 2 ≤ |e.v|) ∧ (last = some e.r → tol ≤ |e.v|)) := by
      intro d hd
      rcases ih _ _ _ hs2 hle' e hd with h | ⟨h1, h2⟩
      · exact Or.inl h
      · right
        have hel := (dropLoop_sublist _ _ _ _).subset hd
        constructor
        · intro f hf hfl hfe
          by_cases hfa : f.r = a.r
          · have h3 := h2 (by rw [← hfa, hfe])
            rw [if_pos (by rw [← hfa]; exact fun h => hfl h.symm)] at h3
            have : |f.v| ≤ |a.v| := by
              rcases List.mem_cons.1 hf with rfl | hf
              · exact le_rfl
              · exact hval f hf hfa
            linarith
          · rcases List.mem_cons.1 hf with rfl | hf
            · exact absurd rfl hfa
            · exact h1 f hf (fun h => hfa (Option.some.inj h)) hfe
        · intro hl
          have h4 : a.r = e.r := le_antisymm (hrow e hel) (hle _ hl a (by simp))
          have h3 := h2 (by rw [h4])
          rwa [if_neg (by rw [hl, h4]; simp)] at h3
    -- the first entry
    have first : e = a → ¬ (|a.v| < (if last ≠ some a.r then (1 / 2) * |a.v| else tol) ∧ a.r ≠ a.c) → e.r = e.c ∨
        ((∀ f ∈ a :: l, some f.r ≠ last → f.r = e.r → |f.v| / 2 ≤ |e.v|) ∧ (last = some e.r → tol ≤ |e.v|)) := by
      rintro rfl hn
      by_cases hd : e.r = e.c
      · exact Or.inl hd
      · right
        have hn' := not_lt.1 fun h => hn ⟨h, hd⟩
        constructor
        · intro f hf hfl hfe
          have : |f.v| ≤ |e.v| := by
            rcases List.mem_cons.1 hf with rfl | hf
            · exact le_rfl
            · exact hval f hf hfe
          have := abs_nonneg e.v
          linarith
        · intro hl
          rwa [if_neg (by rw [hl]; simp)] at hn'
    simp only [dropLoop] at he
    generalize (if last ≠ some a.r then (1 / 2) * |a.v| else tol) = t at he later first
    generalize (if last ≠ some a.r then false else done) = d at he
    split_ifs at he with h1 h2
    all_goals first
      | exact later _ he
      | (rcases List.mem_cons.1 he with he | he
         · exact first he ‹_›
         · exact later _ he)

/-- An entry stays unless a small entry outside of the diagonal is not after it. -/
theorem dropLoop_keep_diag (l : List Entry) : ∀ (last : Option ℕ) (tol : ℝ) (done : Bool),
    l.Pairwise (fun x y => ¬ before y x) →
    ∀ e ∈ l, (∀ f ∈ l, ∀ g ∈ l, f.r = e.r → g.r = e.r → f.r ≠ f.c → |e.v| ≤ |f.v| → |g.v| / 2 ≤ |f.v|) →
      (last = some e.r → done = false ∧ ∀ f ∈ l, f.r = e.r → f.r ≠ f.c → |e.v| ≤ |f.v| → tol ≤ |f.v|) →
      (∀ n, last = some n → ∀ f ∈ l, n ≤ f.r) → e ∈ dropLoop l last tol done := by
  induction l with
  | nil => intro _ _ _ _ e he; simp at he
  | cons a l ih =>
    intro last tol done hs e he hmax hlast hle
    obtain ⟨hs1, hs2⟩ := List.pairwise_cons.1 hs
    have hrow : ∀ f ∈ l, a.r ≤ f.r := by
      intro f hf
      have := hs1 f hf
      simp only [before, not_or, not_lt] at this
      exact this.1
    rcases List.mem_cons.1 he with rfl | hel
    · simp only [dropLoop]
      by_cases hl : last = some e.r
      · obtain ⟨h1, h2⟩ := hlast hl
        simp only [hl, ne_eq, not_true, if_false, h1, Bool.false_eq_true]
        rw [if_neg (by intro h; have := h2 e (by simp) rfl h.2 le_rfl; linarith [h.1])]
        simp
      · simp only [ne_eq, hl, not_false_eq_true, if_true, Bool.false_eq_true, if_false]
        rw [if_neg (by intro h; have := abs_nonneg e.v; linarith [h.1])]
        simp
    · simp only [dropLoop]
      have hle' : ∀ n, some a.r = some n → ∀ f ∈ l, n ≤ f.r := by
        intro n hn f hf; cases hn; exact hrow f hf
      have hmax' : ∀ f ∈ l, ∀ g ∈ l, f.r = e.r → g.r = e.r → f.r ≠ f.c → |e.v| ≤ |f.v| → |g.v| / 2 ≤ |f.v| :=
        fun f hf g hg => hmax f (List.mem_cons_of_mem _ hf) g (List.mem_cons_of_mem _ hg)
      by_cases hae : a.r = e.r
      · have hva2 : |e.v| ≤ |a.v| := by
          have := hs1 e hel
          simp only [before, not_or, not_and, not_lt] at this
          exact this.2 hae.symm
        by_cases hl : last = some a.r
        · obtain ⟨h1, h2⟩ := hlast (by rw [hl, hae])
          simp only [hl, ne_eq, not_true, if_false, h1, Bool.false_eq_true]
          rw [if_neg (by intro h; have := h2 a (by simp) hae h.2 hva2; linarith [h.1])]
          exact List.mem_cons_of_mem _ (ih _ _ _ hs2 e hel hmax'
            (fun _ => ⟨rfl, fun f hf => h2 f (List.mem_cons_of_mem _ hf)⟩) hle')
        · simp only [ne_eq, hl, not_false_eq_true, if_true, Bool.false_eq_true, if_false]
          rw [if_neg (by intro h; have := abs_nonneg a.v; linarith [h.1])]
          refine List.mem_cons_of_mem _ (ih _ _ _ hs2 e hel hmax' (fun _ => ⟨rfl, fun f hf h3 h4 h5 => ?_⟩) hle')
          have := hmax f (List.mem_cons_of_mem _ hf) a (by simp) h3 hae h4 h5
          linarith
      · have hnew : ∀ t d, e ∈ dropLoop l (some a.r) t d := fun t d =>
          ih _ t d hs2 e hel hmax' (fun h => absurd (Option.some.inj h) hae) hle'
        split_ifs <;> first | exact hnew _ _ | exact List.mem_cons_of_mem _ (hnew _ _)

/-! ### The entries -/

theorem filter_eq_of_classify {bs : List Block} {es : List Entry} {e : Entry} {k : Cls} :
    e ∈ es.filter (fun e => classify bs e = k) ↔ e ∈ es ∧ classify bs e = k := by simp

section
variable {sort : List Entry → List Entry} {bs : List Block} {es K : List Entry}

theorem keys_flatMap_subperm (f : Cls → List Entry) (hf : ∀ k, (f k).Subperm (es.filter fun e => classify bs e = k)) :
    ∀ (keys : List Cls), keys.Nodup → ∀ k0, k0 ∉ keys →
      (es.filter (fun e => classify bs e = k0) ++ keys.flatMap f).Subperm es := by
  intro keys hk k0 hk0
  have h1 : (keys.flatMap f).Subperm (keys.flatMap fun k => es.filter fun e => classify bs e = k) := by
    clear hk hk0
    induction keys with
    | nil => exact List.Subperm.refl _
    | cons k ks ih => exact (hf k).append ih
  have h2 : ∀ (ks : List Cls), ks.Nodup → (ks.flatMap fun k => es.filter fun e => classify bs e = k).Subperm
      (es.filter fun e => classify bs e ∈ ks) := by
    intro ks
    induction ks with
    | nil => intro _; simp
    | cons k ks ih =>
      intro hnd
      obtain ⟨h3, h4⟩ := List.nodup_cons.1 hnd
      have h5 := ih h4
      have h6 : (es.filter fun e => classify bs e ∈ k :: ks).Perm
          ((es.filter fun e => classify bs e = k) ++ es.filter fun e => classify bs e ∈ ks) := by
        clear h5 ih hf h1
        simp only [List.mem_cons]
        induction es with
        | nil => simp
        | cons a es ih =>
          by_cases ha : classify bs a = k
          · have : classify bs a ∉ ks := by rw [ha]; exact h3
            simp only [List.filter_cons, List.mem_cons, ha, true_or, decide_true, if_true]
            rw [ha] at this
            simp only [this, decide_false, Bool.false_eq_true, if_false, List.cons_append]
            exact ih.cons a
          · by_cases hb : classify bs a ∈ ks
            · simp only [List.filter_cons, List.mem_cons, ha, hb, or_true, decide_true, if_true, decide_false, Bool.false_eq_true, if_false]
              exact (ih.cons a).trans List.perm_middle.symm
            · simp only [List.filter_cons, List.mem_cons, ha, hb, or_false, decide_false, Bool.false_eq_true, if_false]
              exact ih
      rw [List.flatMap_cons]
      exact ((List.Subperm.refl _).append h5).trans h6.symm.subperm
  have h3 := h2 (k0 :: keys) (List.nodup_cons.2 ⟨hk0, hk⟩)
  rw [List.flatMap_cons] at h3
  exact (((List.Subperm.refl _).append h1).trans h3).trans List.filter_sublist.subperm

/-- **Nothing is invented**: the entries of the preconditioner are entries of the matrix, with their values, none
more often than there. -/
theorem process_subperm (hs : SortOK sort) (h : process sort bs es = some K) : K.Subperm es := by
  unfold process at h
  split at h
  · exact absurd h (by simp)
  · cases h
    refine keys_flatMap_subperm _ (fun k => ?_) _ (List.nodup_dedup _) _ ?_
    · exact (dropLoop_sublist _ _ _ _).subperm.trans (hs _).1.subperm
    · rw [List.mem_dedup, List.mem_filter]
      simp

/-- Every entry that is not small in its row and block is kept. -/
theorem process_keep (hs : SortOK sort) (h : process sort bs es = some K) {e : Entry} (he : e ∈ es)
    (hk : classify bs e = .keep ∨ ∀ f ∈ es, f.r = e.r → classify bs f = classify bs e → |f.v| / 2 ≤ |e.v|) : e ∈ K := by
  unfold process at h
  split at h
  · exact absurd h (by simp)
  · cases h
    rw [List.mem_append]
    by_cases hkeep : classify bs e = .keep
    · left; simp [he, hkeep]
    · right
      have hk := hk.resolve_left hkeep
      refine List.mem_flatMap.2 ⟨classify bs e, ?_, ?_⟩
      · rw [List.mem_dedup, List.mem_filter]
        exact ⟨List.mem_map_of_mem he, by simpa using hkeep⟩
      · obtain ⟨h1, h2⟩ := hs (es.filter fun f => classify bs f = classify bs e)
        refine dropLoop_keep _ none 0 false h2 e (h1.mem_iff.2 (by simp [he])) ?_ (by simp) (by simp)
        intro f hf hr
        have hf' := h1.mem_iff.1 hf
        rw [filter_eq_of_classify] at hf'
        exact hk f hf'.1 hr hf'.2

end

/-! ### The blocks -/

/-- The two equation numbers are of the same equation of the same region. -/
def SameEq (rs : List RegEq) (a b : ℕ) : Prop :=
  ∃ r ∈ rs, ∃ base i, r.base = some base ∧ i < r.neqns ∧
    base + i * r.nnodes ≤ a ∧ a < base + (i + 1) * r.nnodes ∧ base + i * r.nnodes ≤ b ∧ b < base + (i + 1) * r.nnodes

/-- The equation number is one of the region. -/
def RegEq.has (r : RegEq) (a : ℕ) : Prop := ∃ base, r.base = some base ∧ base ≤ a ∧ a < base + r.neqns * r.nnodes

/-- The equation numbers of the regions are disjoint (`Newton.cc:85-170` numbers them one after the other), and
regions have nodes. -/
structure RegsOK (rs : List RegEq) : Prop where
  disj : rs.Pairwise fun r s => ∀ a, ¬ (r.has a ∧ s.has a)
  pos : ∀ r ∈ rs, 0 < r.nnodes

theorem blockMap_append (bs : List Block) (b : Block) (e : ℕ) :
    blockMap (bs ++ [b]) e = if b.emin ≤ e ∧ e ≤ b.emax then some bs.length else blockMap bs e := by
  unfold blockMap
  rw [List.zipIdx_append, List.foldl_append]
  simp

def Block.mem (b : Block) (e : ℕ) : Prop := b.emin ≤ e ∧ e ≤ b.emax

theorem blockMap_some {bs : List Block} {e k : ℕ} (h : blockMap bs e = some k) : ∃ b, bs[k]? = some b ∧ b.mem e := by
  induction bs using List.reverseRecOn with
  | nil => simp [blockMap] at h
  | append_singleton bs b ih =>
    rw [blockMap_append] at h
    split at h
    · cases h
      exact ⟨b, by simp, ‹_›⟩
    · obtain ⟨b', h1, h2⟩ := ih h
      have := (List.getElem?_eq_some_iff.1 h1).1
      exact ⟨b', by rw [List.getElem?_append_left this]; exact h1, h2⟩

theorem blockMap_isSome {bs : List Block} {e : ℕ} {b : Block} (hb : b ∈ bs) (he : b.mem e) : ∃ k, blockMap bs e = some k := by
  induction bs using List.reverseRecOn with
  | nil => simp at hb
  | append_singleton bs b' ih =>
    rw [blockMap_append]
    split
    · exact ⟨_, rfl⟩
    · rcases List.mem_append.1 hb with hb | hb
      · exact ih hb
      · rw [List.mem_singleton.1 hb] at he; exact absurd he ‹_›

theorem mem_blockList {rs : List RegEq} {b : Block} : b ∈ blockList rs ↔ ∃ r ∈ rs, b ∈ r.blocks := by
  unfold blockList
  rw [List.mem_mergeSort, List.mem_flatMap]

theorem mem_blocks {r : RegEq} {b : Block} (hb : b ∈ r.blocks) : ∃ base i, r.base = some base ∧ i < r.neqns ∧
    b = { emin := base + i * r.nnodes, emax := base + i * r.nnodes + r.nnodes - 1, rmin := base, rmax := base + r.neqns * r.nnodes - 1 } := by
  unfold RegEq.blocks at hb
  cases hr : r.base with
  | none => rw [hr] at hb; simp at hb
  | some base =>
    rw [hr] at hb
    obtain ⟨i, hi, rfl⟩ := List.mem_map.1 hb
    exact ⟨base, i, rfl, List.mem_range.1 hi, rfl⟩

theorem Block.has {r : RegEq} {b : Block} (hb : b ∈ r.blocks) (hp : 0 < r.nnodes) {e : ℕ} (he : b.mem e) : r.has e := by
  obtain ⟨base, i, h1, h2, rfl⟩ := mem_blocks hb
  obtain ⟨h3, h4⟩ := he
  simp only at h3 h4
  have : (i + 1) * r.nnodes ≤ r.neqns * r.nnodes := Nat.mul_le_mul_right _ h2
  rw [add_mul, one_mul] at this
  exact ⟨base, h1, by omega, by omega⟩

theorem regs_unique {rs : List RegEq} (h : RegsOK rs) {r s : RegEq} (hr : r ∈ rs) (hs : s ∈ rs) {a : ℕ} (h1 : r.has a) (h2 : s.has a) :
    r = s := by
  obtain ⟨i, hi, rfl⟩ := List.mem_iff_getElem.1 hr
  obtain ⟨j, hj, rfl⟩ := List.mem_iff_getElem.1 hs
  rcases Nat.lt_trichotomy i j with hij | rfl | hij
  · exact absurd ⟨h1, h2⟩ (List.pairwise_iff_getElem.1 h.disj i j hi hj hij a)
  · rfl
  · exact absurd ⟨h2, h1⟩ (List.pairwise_iff_getElem.1 h.disj j i hj hi hij a)

/-- An equation number is in one block only. -/
theorem block_unique {rs : List RegEq} (h : RegsOK rs) {b b' : Block} (hb : b ∈ blockList rs) (hb' : b' ∈ blockList rs) {e : ℕ}
    (h1 : b.mem e) (h2 : b'.mem e) : b = b' := by
  obtain ⟨r, hr, hbr⟩ := mem_blockList.1 hb
  obtain ⟨r', hr', hbr'⟩ := mem_blockList.1 hb'
  have := regs_unique h hr hr' (Block.has hbr (h.pos r hr) h1) (Block.has hbr' (h.pos r' hr') h2)
  subst this
  obtain ⟨base, i, e1, e2, rfl⟩ := mem_blocks hbr
  obtain ⟨base', j, e3, e4, rfl⟩ := mem_blocks hbr'
  rw [e1] at e3
  cases e3
  obtain ⟨h3, h4⟩ := h1
  obtain ⟨h5, h6⟩ := h2
  simp only at h3 h4 h5 h6
  have hp := h.pos r hr
  have : i = j := by
    rcases Nat.lt_trichotomy i j with hij | hij | hij
    · have : (i + 1) * r.nnodes ≤ j * r.nnodes := Nat.mul_le_mul_right _ hij
      rw [add_mul, one_mul] at this
      omega
    · exact hij
    · have : (j + 1) * r.nnodes ≤ i * r.nnodes := Nat.mul_le_mul_right _ hij
      rw [add_mul, one_mul] at this
      omega
  rw [this]

/-- **A block is an equation of a region.** -/
theorem blockMap_eq_iff {rs : List RegEq} (h : RegsOK rs) (hnd : (blockList rs).Nodup) {a b k : ℕ}
    (ha : blockMap (blockList rs) a = some k) : blockMap (blockList rs) b = some k ↔ SameEq rs a b := by
  obtain ⟨x, hx, hxa⟩ := blockMap_some ha
  have hxm := List.mem_of_getElem? hx
  constructor
  · intro hb
    obtain ⟨y, hy, hyb⟩ := blockMap_some hb
    rw [hx] at hy
    cases hy
    obtain ⟨r, hr, hbr⟩ := mem_blockList.1 hxm
    obtain ⟨base, i, e1, e2, rfl⟩ := mem_blocks hbr
    have hp := h.pos r hr
    obtain ⟨h3, h4⟩ := hxa
    obtain ⟨h5, h6⟩ := hyb
    simp only at h3 h4 h5 h6
    refine ⟨r, hr, base, i, e1, e2, h3, ?_, h5, ?_⟩ <;> rw [add_mul, one_mul] <;> omega
  · rintro ⟨r, hr, base, i, e1, e2, h3, h4, h5, h6⟩
    rw [add_mul, one_mul] at h4 h6
    have hy : ({ emin := base + i * r.nnodes, emax := base + i * r.nnodes + r.nnodes - 1, rmin := base, rmax := base + r.neqns * r.nnodes - 1 } : Block) ∈ blockList rs := by
      refine mem_blockList.2 ⟨r, hr, ?_⟩
      unfold RegEq.blocks
      rw [e1]
      exact List.mem_map.2 ⟨i, List.mem_range.2 e2, rfl⟩
    have hya : Block.mem { emin := base + i * r.nnodes, emax := base + i * r.nnodes + r.nnodes - 1, rmin := base, rmax := base + r.neqns * r.nnodes - 1 } a :=
      ⟨h3, by simp only; omega⟩
    have hyb : Block.mem { emin := base + i * r.nnodes, emax := base + i * r.nnodes + r.nnodes - 1, rmin := base, rmax := base + r.neqns * r.nnodes - 1 } b :=
      ⟨h5, by simp only; omega⟩
    have hxy := block_unique h hxm hy hxa hya
    obtain ⟨k', hk'⟩ := blockMap_isSome hy hyb
    obtain ⟨z, hz, hzb⟩ := blockMap_some hk'
    have hzy := block_unique h (List.mem_of_getElem? hz) hy hzb hyb
    rw [hk']
    congr 1
    have hlt := (List.getElem?_eq_some_iff.1 hx)
    have hlt' := (List.getElem?_eq_some_iff.1 hz)
    have := (List.getElem_inj (h₀ := hlt'.1) (h₁ := hlt.1) hnd).1 (by rw [hlt.2, hlt'.2, hxy, hzy])
    exact this

theorem blockList_nodup {rs : List RegEq} (h : RegsOK rs) : (blockList rs).Nodup := by
  unfold blockList
  rw [(List.mergeSort_perm _ _).nodup_iff, List.nodup_flatMap]
  constructor
  · intro r hr
    unfold RegEq.blocks
    cases r.base with
    | none => simp
    | some b =>
      refine List.Nodup.map ?_ List.nodup_range
      intro i j hij
      simp only [Block.mk.injEq, Nat.add_left_cancel_iff] at hij
      exact Nat.eq_of_mul_eq_mul_right (h.pos r hr) hij.1
  · refine (List.pairwise_iff_getElem.2 fun i j hi hj hij => ?_)
    intro b hb hb'
    have hp := h.pos _ (List.getElem_mem hi)
    obtain ⟨base, k, e1, e2, e3⟩ := mem_blocks hb
    have hm : b.mem b.emin := ⟨le_rfl, by rw [e3]; simp only; omega⟩
    exact List.pairwise_iff_getElem.1 h.disj i j hi hj hij b.emin
      ⟨Block.has hb hp hm, Block.has hb' (h.pos _ (List.getElem_mem hj)) hm⟩

/-! ### The properties -/

section
variable {sort : List Entry → List Entry} {rs : List RegEq} {es K : List Entry}

theorem has_block {r : RegEq} (hp : 0 < r.nnodes) {a : ℕ} (h : r.has a) : ∃ b ∈ r.blocks, b.mem a := by
  obtain ⟨base, h1, h2, h3⟩ := h
  have h4 : (a - base) / r.nnodes < r.neqns := (Nat.div_lt_iff_lt_mul hp).2 (by omega)
  have h5 := Nat.div_mul_le_self (a - base) r.nnodes
  have h6 := Nat.lt_div_mul_add (a := a - base) hp
  refine ⟨{ emin := base + (a - base) / r.nnodes * r.nnodes, emax := base + (a - base) / r.nnodes * r.nnodes + r.nnodes - 1, rmin := base, rmax := base + r.neqns * r.nnodes - 1 }, ?_, ?_, ?_⟩
  · unfold RegEq.blocks
    rw [h1]
    exact List.mem_map.2 ⟨(a - base) / r.nnodes, List.mem_range.2 h4, rfl⟩
  · simp only
    omega
  · simp only
    omega

open Classical in
theorem classify_has (h : RegsOK rs) {e : Entry} {r : RegEq} (hr : r ∈ rs) (her : r.has e.r) :
    ∃ k, blockMap (blockList rs) e.r = some k ∧
      classify (blockList rs) e = if r.has e.c then Cls.group (some k) (blockMap (blockList rs) e.c) else Cls.keep := by
  have hp := h.pos r hr
  obtain ⟨b, hb, hbm⟩ := has_block hp her
  obtain ⟨k, hk⟩ := blockMap_isSome (mem_blockList.2 ⟨r, hr, hb⟩) hbm
  refine ⟨k, hk, ?_⟩
  obtain ⟨x, hx, hxm⟩ := blockMap_some hk
  have hxb := block_unique h (List.mem_of_getElem? hx) (mem_blockList.2 ⟨r, hr, hb⟩) hxm hbm
  subst hxb
  obtain ⟨base, i, e1, e2, e3⟩ := mem_blocks hb
  have hrange : (x.rmin ≤ e.c ∧ e.c ≤ x.rmax) ↔ r.has e.c := by
    rw [e3]
    have hpos : 0 < r.neqns * r.nnodes := Nat.mul_pos (by omega) hp
    constructor
    · rintro ⟨h1, h2⟩
      simp only at h1 h2
      exact ⟨base, e1, h1, by omega⟩
    · rintro ⟨base', h1, h2, h3⟩
      rw [e1] at h1
      cases h1
      exact ⟨h2, by simp only; omega⟩
  unfold classify
  simp only [hk, Option.bind_some, hx]
  by_cases hc : r.has e.c
  · rw [if_pos hc]
    split
    · rename_i heq; rw [← heq]
    · rw [if_neg (not_not.2 (hrange.2 hc))]
  · rw [if_neg hc]
    split
    · rename_i heq
      exfalso
      obtain ⟨y, hy, hym⟩ := blockMap_some heq.symm
      rw [hx] at hy
      cases hy
      exact hc (Block.has hb hp hym)
    · rw [if_pos (fun hh => hc (hrange.1 hh))]

/-- Every row belongs to a region: there are no equations of a circuit. -/
def RowsOK (rs : List RegEq) (es : List Entry) : Prop := ∀ e ∈ es, ∃ r ∈ rs, r.has e.r

/-- **Without circuits the preconditioner is made.** -/
theorem process_defined (h : RegsOK rs) (hr : RowsOK rs es) : ∃ K, process sort (blockList rs) es = some K := by
  unfold process
  rw [if_neg]
  · exact ⟨_, rfl⟩
  · simp only [List.any_eq_true, decide_eq_true_eq, not_exists, not_and]
    intro e he hc
    obtain ⟨r, hr1, hr2⟩ := hr e he
    obtain ⟨k, -, h2⟩ := classify_has h hr1 hr2
    rw [h2] at hc
    split at hc <;> simp at hc

/-- **Only small entries are left out**: an entry of the matrix that is not in the preconditioner is smaller than
half of another entry of the same row, whose column is of the same equation, and its column is of the same
region as its row. -/
theorem process_dropped (hs : SortOK sort) (h : RegsOK rs) (hr : RowsOK rs es) (hp : process sort (blockList rs) es = some K)
    {e : Entry} (he : e ∈ es) (hK : e ∉ K) :
    ∃ f ∈ es, f.r = e.r ∧ SameEq rs e.c f.c ∧ |e.v| < |f.v| / 2 ∧ ∃ r ∈ rs, r.has e.r ∧ r.has e.c := by
  by_contra hcon
  refine hK (process_keep hs hp he ?_)
  obtain ⟨r, hr1, hr2⟩ := hr e he
  obtain ⟨k, h1, h2⟩ := classify_has h hr1 hr2
  by_cases hc : r.has e.c
  · right
    intro f hf hfr hcl
    by_contra hlt
    push Not at hlt
    refine hcon ⟨f, hf, hfr, ?_, hlt, r, hr1, hr2, hc⟩
    rw [← hfr] at hr2
    obtain ⟨k', h3, h4⟩ := classify_has h hr1 hr2
    rw [h2, if_pos hc, h4] at hcl
    split at hcl
    · have hcl' := (Cls.group.inj hcl).2
      obtain ⟨b, hb0, hb2⟩ := has_block (h.pos r hr1) hc
      have hb1 := mem_blockList.2 ⟨r, hr1, hb0⟩
      obtain ⟨kc, hkc⟩ := blockMap_isSome hb1 hb2
      exact (blockMap_eq_iff h (blockList_nodup h) hkc).1 (by rw [hcl', hkc])
    · cases hcl
  · left; rw [h2, if_neg hc]

theorem mem_process {bs : List Block} (hs : SortOK sort) (h : process sort bs es = some K) {e : Entry} (he : e ∈ K)
    (hk : classify bs e ≠ .keep) : e ∈ dropLoop (sort (es.filter fun f => classify bs f = classify bs e)) none 0 false := by
  unfold process at h
  split at h
  · exact absurd h (by simp)
  · cases h
    rcases List.mem_append.1 he with he | he
    · exact absurd (by simpa using (List.mem_filter.1 he).2) hk
    · obtain ⟨k, -, hk2⟩ := List.mem_flatMap.1 he
      have h1 := (hs _).1.mem_iff.1 ((dropLoop_sublist _ _ _ _).subset hk2)
      rw [filter_eq_of_classify] at h1
      rw [h1.2]
      exact hk2

theorem classify_sameEq (h : RegsOK rs) {e f : Entry} {r : RegEq} (hr : r ∈ rs) (hrow : f.r = e.r) (her : r.has e.r)
    (hec : r.has e.c) (hc : SameEq rs e.c f.c) : classify (blockList rs) f = classify (blockList rs) e ∧
      classify (blockList rs) e ≠ .keep := by
  obtain ⟨k, h1, h2⟩ := classify_has h hr her
  obtain ⟨k', h3, h4⟩ := classify_has (e := f) h hr (by rw [hrow]; exact her)
  obtain ⟨b, hb0, hb2⟩ := has_block (h.pos r hr) hec
  obtain ⟨kc, hkc⟩ := blockMap_isSome (mem_blockList.2 ⟨r, hr, hb0⟩) hb2
  have h5 := (blockMap_eq_iff h (blockList_nodup h) hkc).2 hc
  have hfc : r.has f.c := by
    obtain ⟨s, hs1, base, i, g1, g2, g3, g4, g5, g6⟩ := hc
    have hle : (i + 1) * s.nnodes ≤ s.neqns * s.nnodes := Nat.mul_le_mul_right _ g2
    have : s = r := regs_unique h hs1 hr ⟨base, g1, by omega, by omega⟩ hec
    subst this
    exact ⟨base, g1, by omega, by omega⟩
  rw [if_pos hec] at h2
  rw [if_pos hfc] at h4
  rw [hrow, h1] at h3
  cases h3
  rw [h2, h4, h5, hkc]
  simp

/-- **All small entries are left out**, except for those of the diagonal. -/
theorem process_small (hs : SortOK sort) (h : RegsOK rs) (hp : process sort (blockList rs) es = some K)
    {e f : Entry} (hf : f ∈ es) (hrow : f.r = e.r) (hc : SameEq rs e.c f.c) (hlt : |e.v| < |f.v| / 2)
    (hreg : ∃ r ∈ rs, r.has e.r ∧ r.has e.c) (hd : e.r ≠ e.c) : e ∉ K := by
  intro hK
  obtain ⟨r, hr1, hr2, hr3⟩ := hreg
  obtain ⟨h1, h2⟩ := classify_sameEq h hr1 hrow hr2 hr3 hc
  have hm := mem_process hs hp hK h2
  obtain ⟨g1, g2⟩ := hs (es.filter fun f => classify (blockList rs) f = classify (blockList rs) e)
  rcases dropLoop_mem _ none 0 false g2 (by simp) e hm with h3 | ⟨h3, -⟩
  · exact hd h3
  · have := h3 f (g1.mem_iff.2 (by simp [hf, h1])) (by simp) hrow
    linarith

/-- **The diagonal stays** when the small entries of its row are smaller than it. -/
theorem process_diag (hs : SortOK sort) (h : RegsOK rs) (hr : RowsOK rs es) (hp : process sort (blockList rs) es = some K)
    {e : Entry} (he : e ∈ es)
    (hbig : ∀ f ∈ es, ∀ g ∈ es, f.r = e.r → g.r = e.r → f.r ≠ f.c → SameEq rs e.c f.c → SameEq rs e.c g.c →
      |e.v| ≤ |f.v| → |g.v| / 2 ≤ |f.v|) : e ∈ K := by
  obtain ⟨r, hr1, hr2⟩ := hr e he
  by_cases hc : r.has e.c
  · obtain ⟨b, hb0, hb2⟩ := has_block (h.pos r hr1) hc
    obtain ⟨kc, hkc⟩ := blockMap_isSome (mem_blockList.2 ⟨r, hr1, hb0⟩) hb2
    have hcls : ∀ f : Entry, f.r = e.r → classify (blockList rs) f = classify (blockList rs) e → SameEq rs e.c f.c := by
      intro f hrow hcl
      obtain ⟨k, h1, h2⟩ := classify_has h hr1 hr2
      obtain ⟨k', h3, h4⟩ := classify_has (e := f) h hr1 (by rw [hrow]; exact hr2)
      rw [h2, if_pos hc, h4] at hcl
      split at hcl
      · exact (blockMap_eq_iff h (blockList_nodup h) hkc).1 (by rw [(Cls.group.inj hcl).2, hkc])
      · cases hcl
    have hne : classify (blockList rs) e ≠ .keep := by
      obtain ⟨k, h1, h2⟩ := classify_has h hr1 hr2
      rw [h2, if_pos hc]; simp
    unfold process at hp
    split at hp
    · exact absurd hp (by simp)
    · cases hp
      refine List.mem_append.2 (Or.inr (List.mem_flatMap.2 ⟨classify (blockList rs) e, ?_, ?_⟩))
      · rw [List.mem_dedup, List.mem_filter]
        exact ⟨List.mem_map_of_mem he, by simpa using hne⟩
      · obtain ⟨h1, h2⟩ := hs (es.filter fun f => classify (blockList rs) f = classify (blockList rs) e)
        refine dropLoop_keep_diag _ none 0 false h2 e (h1.mem_iff.2 (by simp [he])) ?_ (by simp) (by simp)
        intro f hf g hg h3 h4 h5 h6
        have hf' := filter_eq_of_classify.1 (h1.mem_iff.1 hf)
        have hg' := filter_eq_of_classify.1 (h1.mem_iff.1 hg)
        exact hbig f hf'.1 g hg'.1 h3 h4 h5 (hcls f h3 hf'.2) (hcls g h4 hg'.2) h6
  · obtain ⟨k, h1, h2⟩ := classify_has h hr1 hr2
    exact process_keep hs hp he (Or.inl (by rw [h2, if_neg hc]))

/-- The row of an equation of a circuit: no region has it. Entries whose column is of a region are undefined
behaviour. -/
theorem process_circuit (h : RegsOK rs) {e : Entry} (he : e ∈ es) (hrow : ∀ r ∈ rs, ¬ r.has e.r)
    (hcol : ∃ r ∈ rs, r.has e.c) : process sort (blockList rs) es = none := by
  unfold process
  rw [if_pos]
  simp only [List.any_eq_true, decide_eq_true_eq]
  refine ⟨e, he, ?_⟩
  obtain ⟨r, hr, hrc⟩ := hcol
  obtain ⟨b, hb0, hb2⟩ := has_block (h.pos r hr) hrc
  obtain ⟨kc, hkc⟩ := blockMap_isSome (mem_blockList.2 ⟨r, hr, hb0⟩) hb2
  have hnone : blockMap (blockList rs) e.r = none := by
    cases hb : blockMap (blockList rs) e.r with
    | none => rfl
    | some k =>
      obtain ⟨x, hx, hxm⟩ := blockMap_some hb
      obtain ⟨s, hs, hxs⟩ := mem_blockList.1 (List.mem_of_getElem? hx)
      exact absurd (Block.has hxs (h.pos s hs) hxm) (hrow s hs)
  unfold classify
  simp [hnone, hkc]

end

/-! ### Cases -/

noncomputable def sortRef (l : List Entry) : List Entry :=
  l.mergeSort fun x y => decide (x.r < y.r ∨ (x.r = y.r ∧ |y.v| ≤ |x.v|))

theorem sortRef_ok : SortOK sortRef := by
  intro l
  refine ⟨List.mergeSort_perm _ _, ?_⟩
  have h := List.pairwise_mergeSort (le := fun x y : Entry => decide (x.r < y.r ∨ (x.r = y.r ∧ |y.v| ≤ |x.v|)))
    (fun a b c => by
      simp only [decide_eq_true_eq]
      rintro (h1 | ⟨h1, h2⟩) (h3 | ⟨h3, h4⟩)
      · left; omega
      · left; omega
      · left; omega
      · right; exact ⟨by omega, by linarith⟩)
    (fun a b => by
      simp only [Bool.or_eq_true, decide_eq_true_eq]
      rcases Nat.lt_trichotomy a.r b.r with h | h | h
      · left; left; exact h
      · rcases le_total |a.v| |b.v| with h1 | h1
        · right; right; exact ⟨h.symm, h1⟩
        · left; right; exact ⟨h, h1⟩
      · right; left; exact h) l
  refine h.imp ?_
  intro x y hxy hb
  simp only [decide_eq_true_eq] at hxy
  rcases hb with hb | ⟨hb1, hb2⟩
  · rcases hxy with h1 | ⟨h1, -⟩ <;> omega
  · rcases hxy with h1 | ⟨-, h1⟩
    · omega
    · linarith

/-- One region with one equation on three nodes. -/
def oneReg : List RegEq := [⟨some 0, 1, 3⟩]

theorem oneReg_ok : RegsOK oneReg := ⟨by simp [oneReg], by simp [oneReg]⟩

/-- **The diagonal may be left out** (`done_with_row` is looked at before `row != col`): the row has the entries
`1`, `0.4` and, on the diagonal, `0.1`. -/
theorem process_diag_false : ∃ (es : List Entry) (K : List Entry), RowsOK oneReg es ∧
    process sortRef (blockList oneReg) es = some K ∧ ∃ e ∈ es, e.r = e.c ∧ e.v ≠ 0 ∧ e ∉ K := by
  have hrows : RowsOK oneReg [⟨0, 0, 1 / 10⟩, ⟨0, 1, 1⟩, ⟨0, 2, 4 / 10⟩] := by
    intro e he
    refine ⟨_, List.mem_singleton.2 rfl, 0, rfl, Nat.zero_le _, ?_⟩
    simp only [List.mem_cons, List.not_mem_nil, or_false] at he
    rcases he with rfl | rfl | rfl <;> simp
  obtain ⟨K, hK⟩ := process_defined (sort := sortRef) oneReg_ok hrows
  refine ⟨_, K, hrows, hK, _, List.mem_cons_self, rfl, by norm_num, ?_⟩
  intro he
  have hhas : ∀ a, a < 3 → (⟨some 0, 1, 3⟩ : RegEq).has a := fun a ha => ⟨0, rfl, Nat.zero_le _, by simpa using ha⟩
  have hsame : ∀ a b, a < 3 → b < 3 → SameEq oneReg a b := fun a b ha hb =>
    ⟨_, List.mem_singleton.2 rfl, 0, 0, rfl, by simp, by simp, by simpa using ha, by simp, by simpa using hb⟩
  set e0 : Entry := ⟨0, 0, 1 / 10⟩ with he0
  set e1 : Entry := ⟨0, 1, 1⟩ with he1
  set e2 : Entry := ⟨0, 2, 4 / 10⟩ with he2
  have hcl : ∀ f ∈ [e0, e1, e2], classify (blockList oneReg) f = classify (blockList oneReg) e0 := by
    intro f hf
    refine (classify_sameEq oneReg_ok (List.mem_singleton.2 rfl) ?_ (hhas _ (by simp [he0])) (hhas _ (by simp [he0])) (hsame _ _ (by simp [he0]) ?_)).1
    · simp only [List.mem_cons, List.not_mem_nil, or_false] at hf
      rcases hf with rfl | rfl | rfl <;> rfl
    · simp only [List.mem_cons, List.not_mem_nil, or_false] at hf
      rcases hf with rfl | rfl | rfl <;> simp [he0, he1, he2]
  have hne : classify (blockList oneReg) e0 ≠ .keep :=
    (classify_sameEq (f := e0) oneReg_ok (List.mem_singleton.2 rfl) rfl (hhas _ (by simp [he0])) (hhas _ (by simp [he0])) (hsame _ _ (by simp [he0]) (by simp [he0]))).2
  have hm := mem_process sortRef_ok hK he hne
  have hfilter : [e0, e1, e2].filter (fun f => classify (blockList oneReg) f = classify (blockList oneReg) e0) = [e0, e1, e2] := by
    rw [List.filter_eq_self]
    intro f hf
    simpa using hcl f hf
  rw [hfilter] at hm
  have hsort : sortRef [e0, e1, e2] = [e1, e2, e0] := by
    have h1 := (sortRef_ok [e0, e1, e2]).1
    refine List.Perm.eq_of_pairwise (le := fun x y : Entry => ¬ before y x) ?_ (sortRef_ok _).2 ?_ (h1.trans ?_)
    · intro a b ha hb hab hba
      have ha := h1.mem_iff.1 ha
      simp only [List.mem_cons, List.not_mem_nil, or_false] at ha hb
      rcases ha with rfl | rfl | rfl <;> rcases hb with rfl | rfl | rfl <;> first | rfl | (exfalso; revert hab hba; simp only [before, he0, he1, he2]; norm_num [abs_of_pos])
    · simp only [before, he0, he1, he2]
      norm_num [abs_of_pos]
    · exact (List.Perm.swap _ _ _).trans ((List.Perm.swap e2 e0 []).cons e1)
  rw [hsort] at hm
  have : dropLoop [e1, e2, e0] none 0 false = [e1] := by
    have hn : ¬ (none : Option ℕ) = some 0 := by simp
    simp only [dropLoop, he0, he1, he2, hn]
    norm_num [abs_of_pos]
    simp only [hn, if_false]
    norm_num
  rw [this] at hm
  simp only [List.mem_singleton] at hm
  have : e0.v = e1.v := by rw [hm]
  simp [he0, he1] at this

/-- The hypotheses are met: in the same row a large entry stays, a small one outside of the diagonal does not. -/
example : ∃ K, RowsOK oneReg [⟨0, 0, 1⟩, ⟨0, 1, 1 / 4⟩] ∧ process sortRef (blockList oneReg) [⟨0, 0, 1⟩, ⟨0, 1, 1 / 4⟩] = some K ∧
    (⟨0, 0, 1⟩ : Entry) ∈ K ∧ (⟨0, 1, 1 / 4⟩ : Entry) ∉ K := by
  have hrows : RowsOK oneReg [⟨0, 0, 1⟩, ⟨0, 1, 1 / 4⟩] := by
    intro e he
    refine ⟨_, List.mem_singleton.2 rfl, 0, rfl, Nat.zero_le _, ?_⟩
    simp only [List.mem_cons, List.not_mem_nil, or_false] at he
    rcases he with rfl | rfl <;> simp
  obtain ⟨K, hK⟩ := process_defined (sort := sortRef) oneReg_ok hrows
  have hhas : ∀ a, a < 3 → (⟨some 0, 1, 3⟩ : RegEq).has a := fun a ha => ⟨0, rfl, Nat.zero_le _, by simpa using ha⟩
  have hsame : ∀ a b, a < 3 → b < 3 → SameEq oneReg a b := fun a b ha hb =>
    ⟨_, List.mem_singleton.2 rfl, 0, 0, rfl, by simp, by simp, by simpa using ha, by simp, by simpa using hb⟩
  refine ⟨K, hrows, hK, ?_, ?_⟩
  · refine process_diag sortRef_ok oneReg_ok hrows hK (by simp) ?_
    intro f hf g hg _ _ hd _ _ hle
    simp only [List.mem_cons, List.not_mem_nil, or_false] at hf hg
    rcases hf with rfl | rfl
    · exact absurd rfl hd
    · norm_num [abs_of_pos] at hle
  · exact process_small sortRef_ok oneReg_ok hK (f := ⟨0, 0, 1⟩) (by simp) rfl (hsame _ _ (by simp) (by simp)) (by norm_num [abs_of_pos])
      ⟨_, List.mem_singleton.2 rfl, hhas _ (by simp), hhas _ (by simp)⟩ (by simp)

end Verif.Iter
