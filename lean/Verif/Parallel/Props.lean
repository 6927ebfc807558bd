import Verif.Parallel.Model
/-
Property C12: threaded array kernels equal the serial result.
-/
namespace Verif.Parallel

/-! ### helper lemmas on the scheduling loop -/

theorem W_eq : W = 18446744073709551616 := by decide

theorem nextE_zero (vlen : Nat) (hv : vlen < 2 ^ 63) : nextE vlen 0 vlen = vlen := by
  unfold nextE
  have hm : (vlen + 0) % W = vlen := by rw [W_eq, Nat.add_zero]; omega
  rw [hm]
  generalize (vlen + W - 2) % W = g
  simp

theorem taskLoop_single (vlen fuel : Nat) (hv : vlen < 2 ^ 63) (h0 : 0 < vlen) (hf : 1 < fuel) :
    taskLoop vlen 0 fuel 0 vlen = some [(0, vlen)] := by
  obtain ⟨f, rfl⟩ : ∃ f, fuel = f + 2 := ⟨fuel - 2, by omega⟩
  have hn := nextE_zero vlen hv
  rw [taskLoop, if_pos h0, hn]
  rw [taskLoop, if_neg (Nat.lt_irrefl vlen)]

theorem taskLoop_spec (vlen step : Nat) (hv : vlen < 2 ^ 63) (hs : 0 < step) (hsv : 2 * step ≤ vlen) :
    ∀ fuel b e, b ≤ e → e ≤ vlen → (b = e → e = vlen) → vlen - b < fuel →
      ∃ rs, taskLoop vlen step fuel b e = some rs ∧
        (rs.flatMap (fun r => List.range' r.1 (r.2 - r.1))) = List.range' b (vlen - b) ∧
        ∀ r ∈ rs, r.1 < r.2 := by
  intro fuel
  induction fuel with
  | zero => intro b e _ _ _ h; omega
  | succ fuel ih =>
    intro b e hbe hev hend hf
    unfold taskLoop
    by_cases hlt : b < e
    · rw [if_pos hlt]
      have hnext : e ≤ nextE vlen step e ∧ nextE vlen step e ≤ vlen ∧ (e = nextE vlen step e → nextE vlen step e = vlen) := by
        unfold nextE
        have hm : (e + step) % W = e + step := by
          rw [Nat.mod_eq_of_lt]; rw [W_eq]; omega
        simp only [hm]
        have : (vlen + W - 2) % W = vlen - 2 := by
          rw [W_eq]; omega
        rw [this]
        split <;> omega
      obtain ⟨rs, h1, h2, h3⟩ := ih e (nextE vlen step e) hnext.1 hnext.2.1 hnext.2.2 (by omega)
      rw [h1]
      refine ⟨(b, e) :: rs, rfl, ?_, ?_⟩
      · simp only [List.flatMap_cons, h2]
        have : vlen - b = (e - b) + (vlen - e) := by omega
        rw [this, ← List.range'_append_1]
        congr 2
        omega
      · intro r hr
        simp only [List.mem_cons] at hr
        rcases hr with rfl | hr
        · exact hlt
        · exact h3 r hr
    · rw [if_neg hlt]
      refine ⟨[], rfl, ?_, by simp⟩
      have : b = vlen := by
        have := hend (by omega); omega
      simp [this]


/-! ### helper lemmas on interleavings -/

/-- the indices a program touches -/
def Act.idx : Act → Nat
  | .load i => i
  | .store i => i

theorem prog_idx (b n : Nat) : ∀ a ∈ prog b n, b ≤ a.idx ∧ a.idx < b + n := by
  induction n generalizing b with
  | zero => simp [prog]
  | succ n ih =>
    intro a ha
    simp only [prog, List.mem_cons] at ha
    rcases ha with rfl | rfl | ha
    · simp [Act.idx]
    · simp [Act.idx]
    · have := ih (b + 1) a ha; omega

/-- If the indices in `P` are only touched by worker `w`, then what worker `w` sees depends only on its own
steps. -/
theorem exec_project {α : Type} (f : Nat → α → α) (w : Nat) (P : Nat → Prop)
    (l : List (Nat × Act)) (hP : ∀ va ∈ l, (va.1 = w ↔ P va.2.idx)) :
    ∀ s t : St α, (∀ i, P i → s.arr i = t.arr i) → s.reg w = t.reg w →
      (∀ i, P i → (exec f s l).arr i = (exec f t (l.filter (fun va => va.1 = w))).arr i) := by
  induction l with
  | nil => intro s t h _ i hi; exact h i hi
  | cons va l ih =>
    intro s t hst hr
    have ih' := ih (fun va h => hP va (by simp [h]))
    have hva := hP va (by simp)
    obtain ⟨v, a⟩ := va
    simp only [exec, List.foldl_cons] at *
    by_cases hv : v = w
    · subst hv
      simp only [decide_true, List.filter_cons_of_pos, List.foldl_cons]
      apply ih'
      · intro i hi
        cases a with
        | load j => exact hst i hi
        | store j => simp only [stepAct]; rw [hr, hst i hi]
      · cases a with
        | load j =>
          simp only [stepAct, if_true]
          exact hst j (hva.mp rfl)
        | store j => exact hr
    · have : ¬ (decide (v = w) = true) := by simpa using hv
      rw [List.filter_cons_of_neg (by simpa using hv)]
      apply ih'
      · intro i hi
        cases a with
        | load j => exact hst i hi
        | store j =>
          simp only [stepAct]
          have : i ≠ j := by
            rintro rfl
            exact hv (hva.mpr hi)
          rw [if_neg this]; exact hst i hi
      · cases a with
        | load j =>
          simp only [stepAct]
          rw [if_neg (fun h => hv h.symm)]; exact hr
        | store j => exact hr

/-- A worker running alone applies `f` once to each of its elements. -/
theorem exec_prog {α : Type} (f : Nat → α → α) (w : Nat) (b n : Nat) (s : St α) :
    ∀ i, (exec f s ((prog b n).map (fun a => (w, a)))).arr i =
      if b ≤ i ∧ i < b + n then f i (s.arr i) else s.arr i := by
  induction n generalizing b s with
  | zero => intro i; simp [prog, exec]; omega
  | succ n ih =>
    intro i
    simp only [prog, List.map_cons]
    have := ih (b + 1) (stepAct f (stepAct f s (w, .load b)) (w, .store b)) i
    simp only [exec, List.foldl_cons] at *
    rw [this]
    simp only [stepAct, if_true]
    by_cases h1 : i = b
    · subst h1
      rw [if_neg (by omega), if_pos rfl, if_pos (by omega)]
    · rw [if_neg h1]
      by_cases h2 : b + 1 ≤ i ∧ i < b + 1 + n
      · rw [if_pos h2, if_pos (by omega)]
      · rw [if_neg h2, if_neg (by omega)]

/-! ## C12 — statements -/

/-- A range list partitions `[0, vlen)`: written out in order the ranges list each index exactly once. -/
def Partition (rs : List (Nat × Nat)) (vlen : Nat) : Prop :=
  rs.flatMap (fun r => List.range' r.1 (r.2 - r.1)) = List.range vlen

/-- For every length below `2^63`, thread count and task size the scheduling loop ends, and its ranges
partition the index range. -/
theorem taskRanges_partition (numThreads taskSize vlen : Nat) (hv : vlen < 2 ^ 63) :
    ∃ rs, taskRanges numThreads taskSize vlen (vlen + 1) = some rs ∧ Partition rs vlen := by
  unfold taskRanges Partition
  by_cases hc : numThreads > 1 ∧ vlen > taskSize
  · rw [if_pos hc]
    by_cases hs : vlen / numThreads = 0
    · simp only [hs, if_true]
      have hpos : 0 < vlen := by omega
      refine ⟨[(0, vlen)], taskLoop_single vlen _ hv hpos (by omega), ?_⟩
      simp [List.range_eq_range']
    · simp only [hs, if_false]
      have h2 : 2 * (vlen / numThreads) ≤ vlen := by
        have := Nat.div_mul_le_self vlen numThreads
        have : (vlen / numThreads) * 2 ≤ (vlen / numThreads) * numThreads := Nat.mul_le_mul_left _ hc.1
        omega
      obtain ⟨rs, h1, h2, _⟩ := taskLoop_spec vlen (vlen / numThreads) hv (by omega) h2 (vlen + 1) 0
        (vlen / numThreads) (by omega) (by omega) (by omega) (by omega)
      refine ⟨rs, h1, ?_⟩
      rw [h2, List.range_eq_range', Nat.sub_zero]
  · rw [if_neg hc]
    exact ⟨_, rfl, by simp [List.range_eq_range']⟩

example : taskRanges 4 100 1003 1004 = some [(0, 250), (250, 500), (500, 750), (750, 1000), (1000, 1003)] := by
  decide +kernel
example : taskRanges 2 100 1001 1002 = some [(0, 500), (500, 1001)] := by decide +kernel
example : taskRanges 8 0 1 2 = some [(0, 1)] := by decide +kernel

/-- An interleaving of the workers of `rs`: a global sequence of (worker, step) in which the steps of
worker number `w` are, in order, those of the loop over its range; nothing else happens. -/
def IsSchedule (rs : List (Nat × Nat)) (l : List (Nat × Act)) : Prop :=
  (∀ va ∈ l, va.1 < rs.length) ∧
  ∀ w, (h : w < rs.length) → l.filter (fun va => va.1 = w) =
    (prog rs[w].1 (rs[w].2 - rs[w].1)).map (fun a => (w, a))

theorem mem_flatMap_unique (rs : List (Nat × Nat)) (i : Nat)
    (hnd : (rs.flatMap (fun r => List.range' r.1 (r.2 - r.1))).Nodup) :
    ∀ v w (hv : v < rs.length) (hw : w < rs.length),
      i ∈ List.range' rs[v].1 (rs[v].2 - rs[v].1) → i ∈ List.range' rs[w].1 (rs[w].2 - rs[w].1) → v = w := by
  intro v w hv hw h1 h2
  induction rs generalizing v w with
  | nil => simp at hv
  | cons r rs ih =>
    rw [List.flatMap_cons, List.nodup_append] at hnd
    have hdis := hnd.2.2
    cases v with
    | zero =>
      cases w with
      | zero => rfl
      | succ w =>
        simp only [List.getElem_cons_zero, List.getElem_cons_succ] at h1 h2
        have : i ∈ rs.flatMap (fun r => List.range' r.1 (r.2 - r.1)) :=
          List.mem_flatMap.mpr ⟨_, List.getElem_mem _, h2⟩
        exact absurd rfl (hdis i h1 i this)
    | succ v =>
      cases w with
      | zero =>
        simp only [List.getElem_cons_zero, List.getElem_cons_succ] at h1 h2
        have : i ∈ rs.flatMap (fun r => List.range' r.1 (r.2 - r.1)) :=
          List.mem_flatMap.mpr ⟨_, List.getElem_mem _, h1⟩
        exact absurd rfl (hdis i h2 i this)
      | succ w =>
        congr 1
        exact ih hnd.2.1 v w (by simpa using hv) (by simpa using hw) h1 h2

/-- Whatever the partition-respecting schedule, the final array is the serial result: `f` applied exactly
once at every index below `vlen`, and nothing else touched. -/
theorem schedule_serial {α : Type} (f : Nat → α → α) (rs : List (Nat × Nat)) (vlen : Nat)
    (hp : Partition rs vlen) (l : List (Nat × Act)) (hl : IsSchedule rs l) (s : St α) (i : Nat) :
    (exec f s l).arr i = if i < vlen then f i (s.arr i) else s.arr i := by
  have hnd : (rs.flatMap (fun r => List.range' r.1 (r.2 - r.1))).Nodup := by
    rw [hp]; exact List.nodup_range
  have hidx : ∀ va ∈ l, ∃ h : va.1 < rs.length,
      va.2.idx ∈ List.range' rs[va.1].1 (rs[va.1].2 - rs[va.1].1) := by
    intro va hva
    have h := hl.1 va hva
    refine ⟨h, ?_⟩
    have hm : va ∈ l.filter (fun x => x.1 = va.1) := by simp [hva]
    rw [hl.2 va.1 h, List.mem_map] at hm
    obtain ⟨a, ha, hae⟩ := hm
    have := prog_idx _ _ a ha
    have h2 : va.2 = a := by rw [← hae]
    rw [h2, List.mem_range'_1]; exact this
  by_cases hi : i < vlen
  · rw [if_pos hi]
    have hmem : i ∈ rs.flatMap (fun r => List.range' r.1 (r.2 - r.1)) := by
      rw [hp]; simpa using hi
    obtain ⟨r, hr, hir⟩ := List.mem_flatMap.mp hmem
    obtain ⟨w, hw, rfl⟩ := List.getElem_of_mem hr
    have hproj := exec_project f w (fun j => j ∈ List.range' rs[w].1 (rs[w].2 - rs[w].1)) l (by
      intro va hva
      obtain ⟨h, hx⟩ := hidx va hva
      constructor
      · rintro rfl; exact hx
      · intro h2; exact mem_flatMap_unique rs _ hnd _ _ h hw hx h2) s s (fun _ _ => rfl) rfl i hir
    rw [hproj, hl.2 w hw, exec_prog, if_pos]
    simpa [List.mem_range'_1] using hir
  · rw [if_neg hi]
    have hno : ∀ va ∈ l, va.2.idx ≠ i := by
      intro va hva heq
      obtain ⟨h, hx⟩ := hidx va hva
      have : i ∈ rs.flatMap (fun r => List.range' r.1 (r.2 - r.1)) :=
        List.mem_flatMap.mpr ⟨_, List.getElem_mem h, heq ▸ hx⟩
      rw [hp] at this
      exact hi (by simpa using this)
    clear hl hidx
    induction l generalizing s with
    | nil => rfl
    | cons va l ih =>
      simp only [exec, List.foldl_cons] at *
      rw [ih (stepAct f s va) (fun va h => hno va (by simp [h]))]
      have := hno va (by simp)
      obtain ⟨v, a⟩ := va
      cases a with
      | load j => rfl
      | store j => simp only [stepAct]; rw [if_neg]; exact fun h => this h.symm

/-- C12: for every array length (below `2^63`), thread count and task size, the kernel creates finitely many
ranges, and every interleaving of the resulting workers yields the serial result. -/
theorem threaded_kernel_eq_serial {α : Type} (f : Nat → α → α) (numThreads taskSize vlen : Nat)
    (hv : vlen < 2 ^ 63) :
    ∃ rs, taskRanges numThreads taskSize vlen (vlen + 1) = some rs ∧
      ∀ (l : List (Nat × Act)), IsSchedule rs l → ∀ (s : St α) (i : Nat),
        (exec f s l).arr i = if i < vlen then f i (s.arr i) else s.arr i := by
  obtain ⟨rs, h1, h2⟩ := taskRanges_partition numThreads taskSize vlen hv
  exact ⟨rs, h1, fun l hl s i => schedule_serial f rs vlen h2 l hl s i⟩

/-- A genuinely interleaved schedule of two workers on four elements (their loads both precede their stores). -/
example : taskRanges 2 1 4 5 = some [(0, 2), (2, 4)] ∧ IsSchedule [(0, 2), (2, 4)]
    [(0, .load 0), (1, .load 2), (1, .store 2), (0, .store 0), (0, .load 1), (1, .load 3), (0, .store 1), (1, .store 3)] := by
  refine ⟨by decide +kernel, by decide, ?_⟩
  intro w h
  have : w = 0 ∨ w = 1 := by simp at h; omega
  rcases this with rfl | rfl <;> rfl

/-- At least one more range than threads can be created only when the rest does not divide evenly; the number
of ranges never exceeds the number of elements. -/
theorem taskRanges_nonempty_ranges (numThreads taskSize vlen : Nat) (hv : vlen < 2 ^ 63) (h0 : 0 < vlen) :
    ∃ rs, taskRanges numThreads taskSize vlen (vlen + 1) = some rs ∧ ∀ r ∈ rs, r.1 < r.2 ∧ r.2 ≤ vlen := by
  obtain ⟨rs, h1, h2⟩ := taskRanges_partition numThreads taskSize vlen hv
  refine ⟨rs, h1, ?_⟩
  have hlt : ∀ r ∈ rs, r.1 < r.2 := by
    unfold taskRanges at h1
    by_cases hc : numThreads > 1 ∧ vlen > taskSize
    · rw [if_pos hc] at h1
      by_cases hs : vlen / numThreads = 0
      · simp only [hs, if_true] at h1
        rw [taskLoop_single vlen _ hv h0 (by omega)] at h1
        cases h1; simpa using h0
      · simp only [hs, if_false] at h1
        have h2 : 2 * (vlen / numThreads) ≤ vlen := by
          have := Nat.div_mul_le_self vlen numThreads
          have : (vlen / numThreads) * 2 ≤ (vlen / numThreads) * numThreads := Nat.mul_le_mul_left _ hc.1
          omega
        obtain ⟨rs', h1', _, h3⟩ := taskLoop_spec vlen (vlen / numThreads) hv (by omega) h2 (vlen + 1) 0
          (vlen / numThreads) (by omega) (by omega) (by omega) (by omega)
        rw [h1'] at h1
        cases h1; exact h3
    · rw [if_neg hc] at h1; cases h1; simpa using h0
  intro r hr
  refine ⟨hlt r hr, ?_⟩
  have hlast : r.2 - 1 ∈ rs.flatMap (fun r => List.range' r.1 (r.2 - r.1)) :=
    List.mem_flatMap.mpr ⟨r, hr, by have := hlt r hr; rw [List.mem_range'_1]; omega⟩
  rw [h2] at hlast
  have := hlt r hr
  simp only [List.mem_range] at hlast
  omega

/-! ### joining of the per-thread results -/

theorem foldl_join_flag (ps : List Packet) (p : Packet) (k : Nat) :
    (ps.foldl join p).flag.testBit k = (p.flag.testBit k || ps.any (fun q => q.flag.testBit k)) := by
  induction ps generalizing p with
  | nil => simp
  | cons q ps ih => simp [ih, join, Nat.testBit_or, Bool.or_assoc]

theorem foldl_join_err (ps : List Packet) (p : Packet) :
    p.err.toList <:+: (ps.foldl join p).err.toList ∧
    ∀ q ∈ ps, q.err.toList <:+: (ps.foldl join p).err.toList := by
  induction ps generalizing p with
  | nil => simp
  | cons a ps ih =>
    obtain ⟨h1, h2⟩ := ih (join p a)
    have hp : p.err.toList <:+: (join p a).err.toList := by
      simp only [join]; split
      · rw [String.toList_append]; exact (List.prefix_append _ _).isInfix
      · exact List.infix_refl _
    have ha : a.err.toList <:+: (join p a).err.toList := by
      simp only [join]; split
      · rw [String.toList_append]; exact (List.suffix_append _ _).isInfix
      · rename_i h
        have h' : p.err = a.err := Classical.not_not.1 h
        rw [h']; exact List.infix_refl _
    refine ⟨hp.trans h1, ?_⟩
    intro q hq
    rcases List.mem_cons.1 hq with rfl | hq
    · exact ha.trans h1
    · exact h2 q hq

/-- No worker's error message is lost: each occurs in the joined message. -/
theorem joined_errors (ps : List Packet) (p : Packet) (hp : p ∈ ps) : p.err.toList <:+: (joinAll ps).err.toList :=
  (foldl_join_err ps _).2 p hp

/-- A floating point exception flag is raised in the main thread iff some worker raised it, in whatever order
the packets are joined. -/
theorem joined_flag_iff (ps : List Packet) (k : Nat) :
    (joinAll ps).flag.testBit k = true ↔ ∃ q ∈ ps, q.flag.testBit k = true := by
  unfold joinAll
  rw [foldl_join_flag]
  simp

theorem joined_count (ps : List Packet) : (joinAll ps).n = (ps.map Packet.n).sum := by
  unfold joinAll
  have : ∀ p : Packet, (ps.foldl join p).n = p.n + (ps.map Packet.n).sum := by
    induction ps with
    | nil => simp
    | cons q ps ih => intro p; simp [ih, join]; omega
  simpa using this ⟨0, 0, ""⟩

end Verif.Parallel
