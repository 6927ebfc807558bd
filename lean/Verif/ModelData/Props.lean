import Verif.ModelData.Model
/-
Property C14: model values read back as last written.

Specification: the contents is a list of cells; a cell is the last value written at that index, in the precision in which
it was written. Reading converts a cell to the precision asked for.
-/
namespace Verif.ModelData
variable {D E : Type}

/-! ### Specification -/

inductive Cell (D E : Type) where
  | d (v : D)
  | e (v : E)

def Cell.asD (N : Num D E) : Cell D E → D
  | .d v => v
  | .e v => N.down v
def Cell.asE (N : Num D E) : Cell D E → E
  | .d v => N.up v
  | .e v => v

/-- What the user asked for. -/
def specStep (N : Num D E) (n : Nat) (contact : Option (List Nat)) (s : List (Cell D E)) : Op D E → List (Cell D E)
  | .setArrayD v => match contact with
    | none => v.map .d
    | some c => (List.range n).map (fun i => if i ∈ c then .d (v.getD i N.zeroD) else .d N.zeroD)
  | .setArrayE v => match contact with
    | none => v.map .e
    | some c => (List.range n).map (fun i => if i ∈ c then .e (v.getD i N.zeroE) else .e N.zeroE)
  | .setAllD v => match contact with
    | none => List.replicate n (.d v)
    | some c => (List.range n).map (fun i => if i ∈ c then .d v else .d N.zeroD)
  | .setAllE v => match contact with
    | none => List.replicate n (.e v)
    | some c => (List.range n).map (fun i => if i ∈ c then .e v else .e N.zeroE)
  | .setOneD i v => s.set i (.d v)
  | .setOneE i v => s.set i (.e v)
  | .readD => s
  | .readE => s

def specRun (N : Num D E) (n : Nat) (contact : Option (List Nat)) (s : List (Cell D E)) : List (Op D E) → List (Cell D E)
  | [] => s
  | o :: os => specRun N n contact (specStep N n contact s o) os

/-- array arguments have one value per entry (checked by the commands) -/
def Op.LengthOk (n : Nat) : Op D E → Prop
  | .setArrayD v => v.length = n
  | .setArrayE v => v.length = n
  | _ => True

/-- A single-index write is *safe* in state `h` if the array of the other precision has not been materialised:
writing a `double` needs a model held in `double` with no extended copy; writing an extended value needs that there is no
`double` copy when the model is held in extended precision. -/
def SafeWrite (contact : Option (List Nat)) (h : Holder D E) : Op D E → Prop
  | .setOneD i _ => contact = none ∧ (i < h.length → h.type = .double ∧ (h.uniform = false → h.evals = []))
  | .setOneE i _ => contact = none ∧ (i < h.length → (h.type = .extended → h.uniform = false → h.dvals = []))
  | _ => True

/-- histories all of whose single-index writes are safe -/
def SafeRun (N : Num D E) (contact : Option (List Nat)) (h : Holder D E) : List (Op D E) → Prop
  | [] => True
  | o :: os => SafeWrite contact h o ∧ SafeRun N contact (step N contact h o).1 os

/-! ### Refinement relation -/

def Rep (N : Num D E) (h : Holder D E) (s : List (Cell D E)) : Prop :=
  s.length = h.length ∧
  if h.uniform then
    h.dvals = [] ∧ h.evals = [] ∧
    (match h.type with
     | .double => s = List.replicate h.length (.d h.duni)
     | .extended => s.map (Cell.asE N) = List.replicate h.length h.euni)
  else
    match h.type with
    | .double => s = h.dvals.map .d ∧ (h.evals = [] ∨ h.evals = h.dvals.map N.up)
    | .extended => s.map (Cell.asE N) = h.evals ∧ (h.dvals = [] ∨ h.dvals = h.evals.map N.down)

theorem asD_eq (N : Num D E) (hN : ∀ d, N.down (N.up d) = d) (c : Cell D E) : c.asD N = N.down (c.asE N) := by
  cases c <;> simp [Cell.asD, Cell.asE, hN]

theorem rep_expand (N : Num D E) (h : Holder D E) (s : List (Cell D E)) (r : Rep N h s) :
    Rep N (expandUniform N h) s ∧ (expandUniform N h).uniform = false ∧ (expandUniform N h).type = h.type ∧
    (expandUniform N h).length = h.length ∧ (h.uniform = false → expandUniform N h = h) ∧
    (h.uniform = true → h.type = .double → (expandUniform N h).evals = []) ∧
    (h.uniform = true → h.type = .extended → (expandUniform N h).dvals = []) := by
  unfold expandUniform
  by_cases hu : h.uniform = true
  · obtain ⟨h1, h2⟩ := r
    simp only [hu, if_true] at h2 ⊢
    cases ht : h.type with
    | double =>
      simp only [ht] at h2
      simp [Rep, setType, clear, h2]
    | extended =>
      simp only [ht] at h2
      simp [Rep, setType, clear, h2, h1]
  · simp [hu, r]

theorem rep_getD (N : Num D E) (hN : ∀ d, N.down (N.up d) = d) (h : Holder D E) (s : List (Cell D E)) (r : Rep N h s) :
    Rep N (getD N h).1 s ∧ (getD N h).2 = s.map (Cell.asD N) ∧ (getD N h).1.uniform = false ∧
    (getD N h).1.type = h.type ∧ (getD N h).1.length = h.length ∧
    (h.type = .double → (getD N h).1 = expandUniform N h) := by
  obtain ⟨r', hu, ht, hl, _, _, _⟩ := rep_expand N h s r
  obtain ⟨r1, r2⟩ := r'
  simp only [hu, Bool.false_eq_true, if_false] at r2
  unfold getD
  cases htt : h.type with
  | double =>
    rw [htt] at ht
    simp only [ht] at r2
    have hd : (expandUniform N h).dvals = s.map (Cell.asD N) := by
      rw [r2.1]; simp [Function.comp_def, Cell.asD]
    simp only [ht, reduceCtorEq, false_and, if_false]
    exact ⟨⟨r1, by simp only [hu, ht]; exact r2⟩, hd, hu, trivial, hl, fun _ => by trivial⟩
  | extended =>
    rw [htt] at ht
    simp only [ht] at r2
    have hm : (expandUniform N h).evals.map N.down = s.map (Cell.asD N) := by
      rw [← r2.1, List.map_map]
      apply List.map_congr_left
      intro c _; exact (asD_eq N hN c).symm
    by_cases hd : (expandUniform N h).dvals = []
    · simp only [ht, hd, and_self, if_true]
      refine ⟨⟨r1, ?_⟩, hm, hu, trivial, hl, by simp⟩
      simp only [hu, ht]
      exact ⟨r2.1, .inr (by trivial)⟩
    · simp only [ht, hd, and_false, if_false]
      refine ⟨⟨r1, by simp only [hu, ht]; exact r2⟩, ?_, hu, trivial, hl, by simp⟩
      rcases r2.2 with h' | h'
      · exact absurd h' hd
      · rw [h', hm]

theorem rep_getE (N : Num D E) (h : Holder D E) (s : List (Cell D E)) (r : Rep N h s) :
    Rep N (getE N h).1 s ∧ (getE N h).2 = s.map (Cell.asE N) ∧ (getE N h).1.uniform = false ∧
    (getE N h).1.type = h.type ∧ (getE N h).1.length = h.length ∧
    (h.type = .extended → (getE N h).1 = expandUniform N h) := by
  obtain ⟨r', hu, ht, hl, _, _, _⟩ := rep_expand N h s r
  obtain ⟨r1, r2⟩ := r'
  simp only [hu, Bool.false_eq_true, if_false] at r2
  unfold getE
  cases htt : h.type with
  | extended =>
    rw [htt] at ht
    simp only [ht] at r2
    simp only [ht, reduceCtorEq, false_and, if_false]
    exact ⟨⟨r1, by simp only [hu, ht]; exact r2⟩, r2.1.symm, hu, trivial, hl, fun _ => by trivial⟩
  | double =>
    rw [htt] at ht
    simp only [ht] at r2
    have hm : (expandUniform N h).dvals.map N.up = s.map (Cell.asE N) := by
      rw [r2.1, List.map_map]; rfl
    by_cases hd : (expandUniform N h).evals = []
    · simp only [ht, hd, and_self, if_true]
      refine ⟨⟨r1, ?_⟩, hm, hu, trivial, hl, by simp⟩
      simp only [hu, ht]
      exact ⟨r2.1, .inr (by trivial)⟩
    · simp only [ht, hd, and_false, if_false]
      refine ⟨⟨r1, by simp only [hu, ht]; exact r2⟩, ?_, hu, trivial, hl, by simp⟩
      rcases r2.2 with h' | h'
      · exact absurd h' hd
      · rw [h', hm]

theorem rep_step (N : Num D E) (hN : ∀ d, N.down (N.up d) = d) (contact : Option (List Nat)) (h : Holder D E)
    (s : List (Cell D E)) (r : Rep N h s) (o : Op D E) (ho : o.LengthOk h.length) (hs : SafeWrite contact h o) :
    Rep N (step N contact h o).1 (specStep N h.length contact s o) ∧ (step N contact h o).1.length = h.length := by
  cases o with
  | setArrayD v =>
    simp only [Op.LengthOk] at ho
    cases contact with
    | none => simp [step, specStep, setValuesD, Rep, ho]
    | some c =>
      simp [step, specStep, setIndexesD, Rep, clear, indexed]
      intro a _; split <;> simp_all
  | setArrayE v =>
    simp only [Op.LengthOk] at ho
    cases contact with
    | none => simp [step, specStep, setValuesE, Rep, ho, Function.comp_def, Cell.asE]
    | some c =>
      simp [step, specStep, setIndexesE, Rep, clear, indexed]
      intro a _; split <;> simp_all [Cell.asE]
  | setAllD v =>
    cases contact with
    | none => simp [step, specStep, setUniformD, Rep, clear]
    | some c =>
      simp [step, specStep, setIndexesD, Rep, clear, indexed]
      intro a _; split <;> simp_all
  | setAllE v =>
    cases contact with
    | none => simp [step, specStep, setUniformE, Rep, clear, Cell.asE]
    | some c =>
      simp [step, specStep, setIndexesE, Rep, clear, indexed]
      intro a _; split <;> simp_all [Cell.asE]
  | readD =>
    have := rep_getD N hN h s r
    exact ⟨this.1, this.2.2.2.2.1⟩
  | readE =>
    have := rep_getE N h s r
    exact ⟨this.1, this.2.2.2.2.1⟩
  | setOneD i v =>
    obtain ⟨hc, hs⟩ := hs
    subst hc
    by_cases hi : i ≥ h.length
    · have : s.set i (.d v) = s := List.set_eq_of_length_le (by rw [r.1]; exact hi)
      simp only [step, specStep, hi, if_true, this]
      exact ⟨r, by trivial⟩
    · have hi' : i < h.length := by omega
      obtain ⟨ht, hev⟩ := hs hi'
      obtain ⟨r1, _, hu, ht', hl, hge⟩ := rep_getD N hN h s r
      obtain ⟨_, _, _, _, hid, he1, _⟩ := rep_expand N h s r
      have hge := hge ht
      rw [ht] at ht'
      have hi2 : ¬ (i ≥ (getD N h).1.length) := by omega
      have hex : expandUniform N (getD N h).1 = (getD N h).1 := by simp [expandUniform, hu]
      have hev' : (getD N h).1.evals = [] := by
        rw [hge]
        by_cases hun : h.uniform = true
        · exact he1 hun ht
        · rw [hid (by simpa using hun)]; exact hev (by simpa using hun)
      obtain ⟨q1, q2⟩ := r1
      simp only [hu, ht', Bool.false_eq_true, if_false] at q2
      simp only [step, specStep, hi, if_false, setValueD, hi2, ht', hex]
      refine ⟨⟨by simp [q1], ?_⟩, hl⟩
      simp only [hu, ht', hev']
      exact ⟨by rw [q2.1, List.map_set], .inl trivial⟩
  | setOneE i v =>
    obtain ⟨hc, hs⟩ := hs
    subst hc
    by_cases hi : i ≥ h.length
    · have : s.set i (.e v) = s := List.set_eq_of_length_le (by rw [r.1]; exact hi)
      simp only [step, specStep, hi, if_true, this]
      exact ⟨r, by trivial⟩
    · have hi' : i < h.length := by omega
      have hdv := hs hi'
      obtain ⟨r1, _, hu, ht', hl, hge⟩ := rep_getE N h s r
      obtain ⟨_, _, _, _, hid, _, he1⟩ := rep_expand N h s r
      have hi2 : ¬ (i ≥ (getE N h).1.length) := by omega
      obtain ⟨q1, q2⟩ := r1
      simp only [step, specStep, hi, if_false, setValueE, hi2]
      cases ht : h.type with
      | extended =>
        rw [ht] at ht'
        have hge := hge ht
        have hst : setType N (getE N h).1 .extended = (getE N h).1 := by simp [setType, ht']
        have hex : expandUniform N (getE N h).1 = (getE N h).1 := by simp [expandUniform, hu]
        have hdv' : (getE N h).1.dvals = [] := by
          rw [hge]
          by_cases hun : h.uniform = true
          · exact he1 hun ht
          · rw [hid (by simpa using hun)]; exact hdv ht (by simpa using hun)
        simp only [hu, ht', Bool.false_eq_true, if_false] at q2
        rw [hst, hex]
        refine ⟨⟨by simp [q1], ?_⟩, hl⟩
        simp only [hu, ht', hdv']
        exact ⟨by rw [← q2.1, List.map_set]; rfl, .inl trivial⟩
      | double =>
        rw [ht] at ht'
        simp only [hu, ht', Bool.false_eq_true, if_false] at q2
        have hst : setType N (getE N h).1 .extended =
            { (getE N h).1 with evals := (getE N h).1.dvals.map N.up, type := .extended, dvals := [] } := by
          simp [setType, ht', hu]
        have hex : ∀ x : Holder D E, x.uniform = false → expandUniform N x = x := by
          intro x hx; simp [expandUniform, hx]
        rw [hst, hex _ (by simpa using hu)]
        refine ⟨⟨by simp [q1], ?_⟩, hl⟩
        simp only [hu]
        refine ⟨?_, .inl trivial⟩
        rw [q2.1, List.map_set, List.map_map]; rfl

theorem rep_run (N : Num D E) (hN : ∀ d, N.down (N.up d) = d) (contact : Option (List Nat)) (os : List (Op D E)) :
    ∀ (h : Holder D E) (s : List (Cell D E)), Rep N h s → (∀ o ∈ os, o.LengthOk h.length) →
      SafeRun N contact h os → Rep N (run N contact h os) (specRun N h.length contact s os) := by
  induction os with
  | nil => intro h s r _ _; exact r
  | cons o os ih =>
    intro h s r hl hs
    obtain ⟨hs1, hs2⟩ := hs
    obtain ⟨r', hlen⟩ := rep_step N hN contact h s r o (hl o (by simp)) hs1
    have := ih _ _ r' (by intro o' ho'; rw [hlen]; exact hl o' (by simp [ho'])) hs2
    rw [hlen] at this
    exact this

theorem rep_init (N : Num D E) (n : Nat) : Rep N (Holder.init N n) (List.replicate n (.d N.zeroD)) := by
  simp [Rep, Holder.init]

/-- the two copies of the uniform value agree -/
def UniOk (N : Num D E) (h : Holder D E) : Prop :=
  h.uniform = true → (h.type = .double → h.euni = N.up h.duni) ∧ (h.type = .extended → h.duni = N.down h.euni)

theorem uniOk_step (N : Num D E) (contact : Option (List Nat)) (h : Holder D E) (o : Op D E) (r : UniOk N h) :
    UniOk N (step N contact h o).1 := by
  have hexp : ∀ x : Holder D E, (expandUniform N x).uniform = false := by
    intro x
    unfold expandUniform
    split
    · split <;> rfl
    · rename_i hx; simpa using hx
  have hD : (getD N h).1.uniform = false := by
    simp only [getD]; split <;> exact hexp h
  have hE : (getE N h).1.uniform = false := by
    simp only [getE]; split <;> exact hexp h
  have hnon : ∀ x : Holder D E, x.uniform = false → UniOk N x := by
    intro x hx hu; rw [hx] at hu; cases hu
  cases o with
  | setArrayD v => cases contact <;> exact hnon _ rfl
  | setArrayE v => cases contact <;> exact hnon _ rfl
  | setAllD v => cases contact with
    | none => intro _; exact ⟨fun _ => rfl, fun h => (nomatch h)⟩
    | some c => exact hnon _ rfl
  | setAllE v => cases contact with
    | none => intro _; exact ⟨fun h => (nomatch h), fun _ => rfl⟩
    | some c => exact hnon _ rfl
  | readD => exact hnon _ hD
  | readE => exact hnon _ hE
  | setOneD i v =>
    simp only [step]
    split
    · exact r
    · cases contact with
      | some c => exact hnon _ rfl
      | none =>
        apply hnon
        simp only [setValueD]
        split
        · exact hD
        · split
          · simp only [setValueE]; split
            · exact hD
            · exact hexp _
          · exact hexp _
  | setOneE i v =>
    simp only [step]
    split
    · exact r
    · cases contact with
      | some c => exact hnon _ rfl
      | none =>
        apply hnon
        simp only [setValueE]
        split
        · exact hE
        · exact hexp _

theorem uniOk_run (N : Num D E) (contact : Option (List Nat)) (os : List (Op D E)) :
    ∀ h : Holder D E, UniOk N h → UniOk N (run N contact h os) := by
  induction os with
  | nil => intro h r; exact r
  | cons o os ih => intro h r; exact ih _ (uniOk_step N contact h o r)

/-! ## C14 — statements -/

/-- The uniform value that the code uses instead of the array, when the model says it is uniform, is the value of every
entry, in both precisions. -/
theorem uniform_value_is_every_entry_partial (N : Num D E) (hN : ∀ d, N.down (N.up d) = d) (hz : N.up N.zeroD = N.zeroE)
    (contact : Option (List Nat)) (n : Nat) (os : List (Op D E)) (hl : ∀ o ∈ os, o.LengthOk n)
    (hs : SafeRun N contact (Holder.init N n) os) :
    (∀ v, uniformD (run N contact (Holder.init N n) os) = some v →
      ∀ c ∈ specRun N n contact (List.replicate n (.d N.zeroD)) os, c.asD N = v) ∧
    (∀ v, uniformE (run N contact (Holder.init N n) os) = some v →
      ∀ c ∈ specRun N n contact (List.replicate n (.d N.zeroD)) os, c.asE N = v) := by
  have r := rep_run N hN contact os _ _ (rep_init N n) hl hs
  have u := uniOk_run N contact os (Holder.init N n) (by intro _; exact ⟨fun _ => hz.symm, fun h => (nomatch h)⟩)
  have hlen : (Holder.init N n).length = n := rfl
  rw [hlen] at r
  generalize run N contact (Holder.init N n) os = h at r u
  generalize specRun N n contact (List.replicate n (.d N.zeroD)) os = s at r
  have key : h.uniform = true → (∀ c ∈ s, c.asD N = h.duni ∧ c.asE N = h.euni) := by
    intro hu c hc
    obtain ⟨_, r2⟩ := r
    simp only [hu, if_true] at r2
    obtain ⟨_, _, r3⟩ := r2
    obtain ⟨u1, u2⟩ := u hu
    cases ht : h.type with
    | double =>
      rw [ht] at r3
      simp only at r3
      rw [r3] at hc
      rw [List.eq_of_mem_replicate hc, u1 ht]
      exact ⟨rfl, rfl⟩
    | extended =>
      rw [ht] at r3
      simp only at r3
      have : c.asE N ∈ s.map (Cell.asE N) := List.mem_map_of_mem hc
      rw [r3] at this
      have e := List.eq_of_mem_replicate this
      exact ⟨by rw [asD_eq N hN, e, u2 ht], e⟩
  constructor
  · intro v hv c hc
    simp only [uniformD] at hv
    split at hv
    · rename_i hu; rw [(key hu c hc).1]; exact Option.some.inj hv
    · cases hv
  · intro v hv c hc
    simp only [uniformE] at hv
    split at hv
    · rename_i hu; rw [(key hu c hc).2]; exact Option.some.inj hv
    · cases hv

example : uniformE (run ⟨fun x : Int => x * 10, fun x : Int => x / 10, 0, 0⟩ none (Holder.init ⟨fun x : Int => x * 10, fun x : Int => x / 10, 0, 0⟩ 3)
    [.setAllD (7 : Int)]) = some 70 := by decide

/-- Partial C14 (missing: unsafe single-index writes, for which it is false, see below). After any history of writes and
reads in both precisions, whole arrays, uniform values and safe single-index writes, on a model or a contact model, a read in
either precision returns at each index the last value written there, converted to that precision. `N.down ∘ N.up = id` holds
for `double`/`float128`. -/
theorem read_last_written_partial (N : Num D E) (hN : ∀ d, N.down (N.up d) = d) (contact : Option (List Nat)) (n : Nat)
    (os : List (Op D E)) (hl : ∀ o ∈ os, o.LengthOk n) (hs : SafeRun N contact (Holder.init N n) os) :
    (getD N (run N contact (Holder.init N n) os)).2 =
      (specRun N n contact (List.replicate n (.d N.zeroD)) os).map (Cell.asD N) ∧
    (getE N (run N contact (Holder.init N n) os)).2 =
      (specRun N n contact (List.replicate n (.d N.zeroD)) os).map (Cell.asE N) := by
  have r := rep_run N hN contact os _ _ (rep_init N n) hl hs
  exact ⟨(rep_getD N hN _ _ r).2.1, (rep_getE N _ _ r).2.1⟩

/-- operations which only exist in a standard precision build -/
def Op.IsDouble : Op D E → Prop
  | .setArrayD _ => True
  | .setAllD _ => True
  | .setOneD _ _ => True
  | .readD => True
  | _ => False

theorem double_state (N : Num D E) (contact : Option (List Nat)) (h : Holder D E) (o : Op D E) (ho : o.IsDouble)
    (ht : h.type = .double ∧ h.evals = []) :
    (step N contact h o).1.type = .double ∧ (step N contact h o).1.evals = [] := by
  have hex : (expandUniform N h).type = .double ∧ (expandUniform N h).evals = [] := by
    unfold expandUniform
    split
    · simp [ht.1, setType, clear]
    · exact ht
  have hg : (getD N h).1 = expandUniform N h := by
    unfold getD; simp [hex.1]
  cases o with
  | setArrayD v => cases contact <;> simp [step, setValuesD, setIndexesD, clear]
  | setAllD v => cases contact <;> simp [step, setUniformD, setIndexesD, clear]
  | setOneD i v =>
    simp only [step]
    split
    · exact ht
    · cases contact with
      | some c => simp [setIndexesD, clear]
      | none =>
        simp only [setValueD, hg]
        split
        · exact hex
        · simp only [hex.1]
          have hu : (expandUniform N h).uniform = false := by
            unfold expandUniform
            split
            · simp [ht.1]
            · rename_i hq; simpa using hq
          have : expandUniform N (expandUniform N h) = expandUniform N h := by
            generalize expandUniform N h = g at *
            simp [expandUniform, hu]
          rw [this]; exact hex
  | readD => simp only [step, hg]; exact hex
  | setArrayE v => exact absurd ho id
  | setAllE v => exact absurd ho id
  | setOneE i v => exact absurd ho id
  | readE => exact absurd ho id

theorem double_safe (N : Num D E) (os : List (Op D E)) (ho : ∀ o ∈ os, o.IsDouble) :
    ∀ h : Holder D E, h.type = .double ∧ h.evals = [] → SafeRun N none h os := by
  induction os with
  | nil => intro h _; trivial
  | cons o os ih =>
    intro h ht
    refine ⟨?_, ih (fun o h => ho o (by simp [h])) _ (double_state N none h o (ho o (by simp)) ht)⟩
    cases o <;> simp_all [SafeWrite, Op.IsDouble]

/-- C14 in a standard precision build, at full strength: after *any* history of writes (array, uniform, single index)
and reads of a model that is not restricted to a contact, a read returns at each index the last value written. -/
theorem read_last_written_standard (N : Num D E) (hN : ∀ d, N.down (N.up d) = d) (n : Nat)
    (os : List (Op D E)) (hl : ∀ o ∈ os, o.LengthOk n) (hd : ∀ o ∈ os, o.IsDouble) :
    (getD N (run N none (Holder.init N n) os)).2 =
      (specRun N n none (List.replicate n (.d N.zeroD)) os).map (Cell.asD N) :=
  (read_last_written_partial N hN none n os hl (double_safe N os hd _ ⟨rfl, rfl⟩)).1

def exN : Num Nat Nat := ⟨fun x => 2 * x, fun x => x / 2, 0, 0⟩
example : ∃ os : List (Op Nat Nat), os.length = 5 ∧ (∀ o ∈ os, o.LengthOk 3) ∧ (∀ o ∈ os, o.IsDouble) ∧
    (getD exN (run exN none (Holder.init exN 3) os)).2 = [7, 9, 7] :=
  ⟨[.setArrayD [1, 2, 3], .readD, .setAllD 7, .setOneD 1 9, .readD], rfl, by simp [Op.LengthOk], by simp [Op.IsDouble],
    by decide +kernel⟩
/-- a mixed-precision history meeting the hypotheses of the partial theorem -/
example : SafeRun exN none (Holder.init exN 2) [.setAllD 3, .setOneE 1 9, .readE, .setArrayD [1, 2], .setOneD 0 4] ∧
    ∀ o ∈ ([.setAllD 3, .setOneE 1 9, .readE, .setArrayD [1, 2], .setOneD 0 4] : List (Op Nat Nat)), o.LengthOk 2 := by
  refine ⟨?_, by simp [Op.LengthOk]⟩
  simp only [SafeRun, SafeWrite, and_true, true_and]
  refine ⟨by decide +kernel, by decide +kernel⟩

/-- Negation (1): on a model held in extended precision, a single-index write of a `double`
(`set_node_value(index=...)`) is *never* visible to a subsequent read in `double`: the values are those before the write. -/
theorem setOne_on_extended_lost (N : Num D E) (h : Holder D E) (i : Nat) (v : D)
    (ht : h.type = .extended) (hr : (getD N h).2 ≠ []) :
    (getD N (step N none h (.setOneD i v)).1).2 = (getD N h).2 := by
  by_cases hi : i ≥ h.length
  · simp [step, hi]
  · -- after the initial read
    have hx : (getD N h).1.type = .extended ∧ (getD N h).1.uniform = false ∧ (getD N h).1.length = h.length := by
      unfold getD expandUniform
      cases hu : h.uniform with
      | true =>
        simp only [ht, if_true, setType, clear]
        simp
      | false =>
        simp only [Bool.false_eq_true, if_false, ht, true_and]
        split <;> simp [ht, hu]
    have h2 : (getD N h).2 = (getD N h).1.dvals := rfl
    obtain ⟨ht', hu', hl'⟩ := hx
    rw [h2] at hr
    have hi2 : ¬ (i ≥ (getD N h).1.length) := by omega
    rw [h2]
    simp only [step, hi, if_false, setValueD, hi2, ht', setValueE, setType, if_true]
    have hex : ∀ x : Holder D E, x.uniform = false → expandUniform N x = x := by
      intro x hx; simp [expandUniform, hx]
    rw [hex _ hu']
    generalize (getD N h).1 = g at *
    simp only [getD]
    rw [hex _ (by simpa using hu')]
    simp [hr]

/-- e.g. a variable held in extended precision with values 2, 4 (as double 1, 2): writing 9 at index 0 leaves the `double`
reading [1, 2]. -/
example : let h := run exN none (Holder.init exN 2) [.setArrayE [2, 4]]
    h.type = .extended ∧ (getD exN h).2 ≠ [] ∧ (getD exN (step exN none h (.setOneD 0 9)).1).2 = [1, 2] := by
  decide +kernel

/-- Negation (2): on a model held in `double` that has been read in extended precision, a single-index write is not
visible to later reads in extended precision. -/
theorem setOne_after_extended_read_lost :
    ∃ os : List (Op Nat Nat), (∀ o ∈ os, o.LengthOk 2) ∧
      (getE exN (run exN none (Holder.init exN 2) os)).2 ≠
        (specRun exN 2 none (List.replicate 2 (.d exN.zeroD)) os).map (Cell.asE exN) :=
  ⟨[.setArrayD [1, 2], .readE, .setOneD 0 5], by simp [Op.LengthOk], by decide +kernel⟩

/-- Negation (3): on a model restricted to a contact, a single-index write overwrites every node of the contact
(NodeModel.cc:207-211 ignores the index). -/
theorem setOne_on_contact_sets_all (N : Num D E) (h : Holder D E) (c : List Nat) (i j : Nat) (v : D)
    (hi : i < h.length) (hj : j < h.length) (hc : j ∈ c) :
    (getD N (step N (some c) h (.setOneD i v)).1).2[j]? = some v := by
  have hl : (getD N h).1.length = h.length := by
    unfold getD
    have : (expandUniform N h).length = h.length := by
      unfold expandUniform setType clear
      split
      · split <;> simp <;> split <;> rfl
      · rfl
    simp only; split <;> exact this
  simp only [step, show ¬ (i ≥ h.length) by omega, if_false]
  generalize (getD N h).1 = g at *
  simp [setIndexesD, clear, getD, expandUniform, indexed, hl, hj, hc]

example : (getD exN (step exN (some [0, 2]) (Holder.init exN 4) (.setOneD 1 5)).1).2 = [5, 0, 5, 0] := by decide +kernel

end Verif.ModelData
