import Verif.MeshIO.Write

/-!
# Reading the tokens of a written device
-/

namespace Verif.MeshIO

variable {α : Type}

/-- Read tokens one after the other; `none` when one of them stops the parser. -/
def steps (env : Env α) : Ctx α → Sess α → List Tok → Option (Ctx α × Sess α)
  | c, s, [] => some (c, s)
  | c, s, t :: ts => match step env s c t with
    | .ok c' s' => steps env c' s' ts
    | _ => none

theorem steps_append (env : Env α) {c : Ctx α} {s : Sess α} {a b : List Tok} {c' : Ctx α} {s' : Sess α}
    (h : steps env c s a = some (c', s')) : steps env c s (a ++ b) = steps env c' s' b := by
  induction a generalizing c s with
  | nil => simp only [steps, Option.some.injEq, Prod.mk.injEq] at h; obtain ⟨rfl, rfl⟩ := h; rfl
  | cons t ts ih =>
    simp only [steps, List.cons_append] at h ⊢
    cases e : step env s c t with
    | ok c1 s1 => rw [e] at h; exact ih h
    | abort _ => rw [e] at h; simp at h
    | throw _ => rw [e] at h; simp at h
    | crash => rw [e] at h; simp at h

theorem steps_trans (env : Env α) {c : Ctx α} {s : Sess α} {a b : List Tok} {c' c'' : Ctx α} {s' s'' : Sess α}
    (h : steps env c s a = some (c', s')) (h' : steps env c' s' b = some (c'', s'')) :
    steps env c s (a ++ b) = some (c'', s'') := by rw [steps_append env h, h']

theorem parse_of_steps (env : Env α) {c : Ctx α} {s : Sess α} {l : List (Tok × Stk)} {fin : Stk}
    {c' : Ctx α} {s' : Sess α} (h : steps env c s (l.map Prod.fst) = some (c', s')) :
    parse env c s l fin = if c'.closedN 5 then (.ok, s', fin) else (.fail, s', fin) := by
  induction l generalizing c s with
  | nil =>
    simp only [List.map_nil, steps, Option.some.injEq, Prod.mk.injEq] at h
    obtain ⟨rfl, rfl⟩ := h; rfl
  | cons t ts ih =>
    obtain ⟨t, st⟩ := t
    simp only [steps, List.map_cons] at h
    simp only [parse]
    cases e : step env s c t with
    | ok c1 s1 => rw [e] at h; exact ih h
    | abort _ => rw [e] at h; simp at h
    | throw _ => rw [e] at h; simp at h
    | crash => rw [e] at h; simp at h

/-! ### Sections that are closed by the next keyword -/

/-- Inside a region, between its sections. -/
inductive InReg : Ctx α → Prop
  | region : InReg .region
  | elems {e : Elem} (h : e.owner = .region) : InReg (.elems e [])
  | node : InReg (.sol .node)
  | edge : InReg (.sol .edge)

/-- Inside a device, between its sections. -/
inductive InDev : Ctx α → Prop
  | device : InDev .device
  | coords : InDev (.coords [])
  | region : InDev .region
  | contact : InDev .contact
  | iface : InDev .iface

theorem step_inReg (env : Env α) (s : Sess α) {c : Ctx α} (h : InReg c) {k : Kw}
    (hk : k ∈ [Kw.begNode, .begEdge, .begTri, .begTet, .begNodeSol, .begEdgeSol, .endRegion]) :
    step env s c (.kw k) = step env s .region (.kw k) := by
  simp only [List.mem_cons, List.not_mem_nil, or_false] at hk
  cases h with
  | region => rfl
  | @elems e h => cases e <;> simp only [Elem.owner, reduceCtorEq] at h <;>
      rcases hk with rfl | rfl | rfl | rfl | rfl | rfl | rfl <;> rfl
  | node => rcases hk with rfl | rfl | rfl | rfl | rfl | rfl | rfl <;> rfl
  | edge => rcases hk with rfl | rfl | rfl | rfl | rfl | rfl | rfl <;> rfl

theorem step_inDev (env : Env α) (s : Sess α) {c : Ctx α} (h : InDev c) {k : Kw}
    (hk : k ∈ [Kw.begCoord, .begRegion, .begContact, .begIface, .endDevice]) :
    step env s c (.kw k) = step env s .device (.kw k) := by
  simp only [List.mem_cons, List.not_mem_nil, or_false] at hk
  cases h <;> rcases hk with rfl | rfl | rfl | rfl | rfl <;> rfl

/-! ### Lists of elements -/

theorem mkElem_of_lt {l : List Nat} (h : l.Pairwise (· < ·)) : mkElem l = l := by
  unfold mkElem
  exact List.mergeSort_of_pairwise (h.imp fun h => by simpa using le_of_lt h)

/-- The session while a region is read. -/
def sReg (L : Loader α) (n : Text) (r : MReg α) (ms : List Text) (ds : Devs α) : Sess α :=
  ⟨some L, some (n, r), none, none, none, none, ms, ds⟩

/-- The session while a contact is read. -/
def sCon (L : Loader α) (n : Text) (r : MCon α) (ms : List Text) (ds : Devs α) : Sess α :=
  ⟨some L, none, some (n, r), none, none, none, ms, ds⟩

/-- The session while an interface is read. -/
def sIfc (L : Loader α) (n : Text) (r : MIfc α) (ms : List Text) (ds : Devs α) : Sess α :=
  ⟨some L, none, none, some (n, r), none, none, ms, ds⟩

/-- The session between the sections of a device. -/
def sDev (L : Loader α) (ms : List Text) (ds : Devs α) : Sess α :=
  ⟨some L, none, none, none, none, none, ms, ds⟩

/-- The session between devices. -/
def sIdle (ms : List Text) (ds : Devs α) : Sess α :=
  ⟨none, none, none, none, none, none, ms, ds⟩

theorem step_line (env : Env α) (s : Sess α) (e : Elem) (p : List Nat) (a : Nat) :
    step env s (.elems e (p.map Int.ofNat)) (.int a) =
      if (p ++ [a]).length = e.arity then addElem s e (p ++ [a])
      else .ok (.elems e ((p ++ [a]).map Int.ofNat)) s := by
  have hp : (p.map Int.ofNat ++ [(a : Int)]) = (p ++ [a]).map Int.ofNat := by simp
  have hnn : ((p ++ [a]).map Int.ofNat).any (fun x : Int => decide (x < 0)) = false := by
    simp only [List.any_eq_false, List.mem_map]
    rintro x ⟨y, -, rfl⟩
    simp
  have hnat : ((p ++ [a]).map Int.ofNat).map Int.toNat = p ++ [a] := by
    simp [List.map_map, Function.comp_def]
  simp only [step, stepN, accept, hp, List.length_map, hnn, hnat]
  by_cases h : (p ++ [a]).length = e.arity
  · simp only [h, if_true]; rfl
  · simp only [h, if_false]

theorem steps_line (env : Env α) (e : Elem) {s s' : Sess α} : ∀ (l p : List Nat), p.length + l.length = e.arity →
    l ≠ [] → addElem s e (p ++ l) = .ok (.elems e []) s' →
    steps env (.elems e (p.map Int.ofNat)) s (l.map fun (i : Nat) => Tok.int i) = some (.elems e [], s')
  | [], _, _, h, _ => absurd rfl h
  | [a], p, hl, _, ha => by
    simp only [List.map_cons, List.map_nil, steps, step_line]
    rw [if_pos (by simpa using hl), ha]
  | a :: b :: l, p, hl, _, ha => by
    rw [List.map_cons]
    simp only [steps, step_line]
    rw [if_neg (by simp at hl ⊢; omega)]
    exact steps_line env e (b :: l) (p ++ [a]) (by simp at hl ⊢; omega) (by simp) (by simpa using ha)

theorem steps_lines (env : Env α) {β : Type} (S : β → Sess α) (e : Elem) (f : β → List Nat → β)
    (ls : List (List Nat)) (hls : ∀ l ∈ ls, l.length = e.arity)
    (hadd : ∀ b, ∀ l ∈ ls, addElem (S b) e l = .ok (.elems e []) (S (f b l))) (b : β) :
    steps env (.elems e []) (S b) (ls.flatMap fun l => l.map fun (i : Nat) => Tok.int i) =
      some (.elems e [], S (ls.foldl f b)) := by
  induction ls generalizing b with
  | nil => rfl
  | cons l ls ih =>
    have h0 : 0 < e.arity := by cases e <;> simp [Elem.arity]
    have h1 := steps_line env e (s := S b) l [] (by simpa using hls l (by simp))
      (by rintro rfl; have := hls [] (by simp); simp at this; omega) (hadd b l (by simp))
    simp only [List.map_nil] at h1
    simp only [List.flatMap_cons, List.foldl_cons]
    rw [steps_append env h1]
    exact ih (fun x hx => hls x (by simp [hx])) (fun b x hx => hadd b x (by simp [hx])) _

/-- A list of elements with its keywords. -/
theorem steps_elems (env : Env α) {β : Type} (S : β → Sess α) (k0 k1 : Kw) (e : Elem) (f : β → List Nat → β)
    (ls : List (List Nat)) (hls : ∀ l ∈ ls, l.length = e.arity)
    (hadd : ∀ b, ∀ l ∈ ls, addElem (S b) e l = .ok (.elems e []) (S (f b l))) (b : β) {c : Ctx α}
    (hopen : step env (S b) c (.kw k0) = .ok (.elems e []) (S b)) (hfin : e.fin = k1) :
    steps env c (S b) (elemToks k0 k1 ls) = some (.elems e [], S (ls.foldl f b)) := by
  simp only [elemToks, List.cons_append, steps, hopen]
  rw [steps_append env (steps_lines env S e f ls hls hadd b)]
  have h3 : ∀ s : Sess α, step env s (.elems e []) (.kw k1) = .ok (.elems e []) s := by
    intro s; simp [step, stepN, accept, hfin]
  simp only [steps, h3]

section
variable (env : Env α) (L : Loader α) (n : Text) (ms : List Text) (ds : Devs α)

theorem steps_rnodes (l : List Nat) (r : MReg α) {c : Ctx α} (h : InReg c) (hr : r.nodes = []) :
    steps env c (sReg L n r ms ds) (elemToks .begNode .endNode (l.map fun i => [i])) =
      some (.elems .rnode [], sReg L n { r with nodes := l } ms ds) := by
  rw [steps_elems env (fun r => sReg L n r ms ds) .begNode .endNode .rnode
    (fun r x => { r with nodes := r.nodes ++ [x.headD 0] }) _ (by simp [Elem.arity]) _ r _ rfl]
  · have : ∀ (l : List Nat) (r : MReg α),
        (l.map fun i => [i]).foldl (fun (r : MReg α) x => { r with nodes := r.nodes ++ [x.headD 0] }) r =
          { r with nodes := r.nodes ++ l } := by
      intro l
      induction l with
      | nil => intro r; simp
      | cons a l ih => intro r; simp only [List.map_cons, List.foldl_cons, ih]; simp
    rw [this, hr, List.nil_append]
  · intro b x hx
    simp only [List.mem_map] at hx
    obtain ⟨i, -, rfl⟩ := hx
    rfl
  · rw [step_inReg env _ h (by simp)]
    simp [step, stepN, accept, Ctx.opens, openElems, openElems.go, sReg, hr]

theorem steps_redges (ls : List (List Nat)) (hls : ∀ l ∈ ls, l.length = 2 ∧ l.Pairwise (· < ·)) (r : MReg α)
    {c : Ctx α} (h : InReg c) (hr : r.edges = []) :
    steps env c (sReg L n r ms ds) (elemToks .begEdge .endEdge ls) =
      some (.elems .redge [], sReg L n { r with edges := ls } ms ds) := by
  rw [steps_elems env (fun r => sReg L n r ms ds) .begEdge .endEdge .redge
    (fun r x => { r with edges := r.edges ++ [x] }) _ (fun l hl => (hls l hl).1) _ r _ rfl]
  · have : ∀ (l : List (List Nat)) (r : MReg α),
        l.foldl (fun (r : MReg α) x => { r with edges := r.edges ++ [x] }) r = { r with edges := r.edges ++ l } := by
      intro l
      induction l with
      | nil => intro r; simp
      | cons a l ih => intro r; simp only [List.foldl_cons, ih]; simp
    rw [this, hr, List.nil_append]
  · intro b l hl
    obtain ⟨h1, h2⟩ := hls l hl
    match l, h1, h2 with
    | [a, b], _, h2 =>
      simp only [addElem, mkElem_of_lt h2]; rfl
  · rw [step_inReg env _ h (by simp)]
    simp [step, stepN, accept, Ctx.opens, openElems, openElems.go, sReg, hr]

theorem steps_rtris (ls : List (List Nat)) (hls : ∀ l ∈ ls, l.length = 3 ∧ l.Pairwise (· < ·)) (r : MReg α)
    {c : Ctx α} (h : InReg c) (hr : r.tris = []) :
    steps env c (sReg L n r ms ds) (elemToks .begTri .endTri ls) =
      some (.elems .rtri [], sReg L n { r with tris := ls } ms ds) := by
  rw [steps_elems env (fun r => sReg L n r ms ds) .begTri .endTri .rtri
    (fun r x => { r with tris := r.tris ++ [x] }) _ (fun l hl => (hls l hl).1) _ r _ rfl]
  · have : ∀ (l : List (List Nat)) (r : MReg α),
        l.foldl (fun (r : MReg α) x => { r with tris := r.tris ++ [x] }) r = { r with tris := r.tris ++ l } := by
      intro l
      induction l with
      | nil => intro r; simp
      | cons a l ih => intro r; simp only [List.foldl_cons, ih]; simp
    rw [this, hr, List.nil_append]
  · intro b l hl
    obtain ⟨h1, h2⟩ := hls l hl
    match l, h1, h2 with
    | [a, b, c], _, h2 =>
      simp only [addElem, mkElem_of_lt h2]; rfl
  · rw [step_inReg env _ h (by simp)]
    simp [step, stepN, accept, Ctx.opens, openElems, openElems.go, sReg, hr]

theorem steps_rtets (ls : List (List Nat)) (hls : ∀ l ∈ ls, l.length = 4 ∧ l.Pairwise (· < ·)) (r : MReg α)
    {c : Ctx α} (h : InReg c) (hr : r.tets = []) :
    steps env c (sReg L n r ms ds) (elemToks .begTet .endTet ls) =
      some (.elems .rtet [], sReg L n { r with tets := ls } ms ds) := by
  rw [steps_elems env (fun r => sReg L n r ms ds) .begTet .endTet .rtet
    (fun r x => { r with tets := r.tets ++ [x] }) _ (fun l hl => (hls l hl).1) _ r _ rfl]
  · have : ∀ (l : List (List Nat)) (r : MReg α),
        l.foldl (fun (r : MReg α) x => { r with tets := r.tets ++ [x] }) r = { r with tets := r.tets ++ l } := by
      intro l
      induction l with
      | nil => intro r; simp
      | cons a l ih => intro r; simp only [List.foldl_cons, ih]; simp
    rw [this, hr, List.nil_append]
  · intro b l hl
    obtain ⟨h1, h2⟩ := hls l hl
    match l, h1, h2 with
    | [a, b, c, d], _, h2 =>
      simp only [addElem, mkElem_of_lt h2]; rfl
  · rw [step_inReg env _ h (by simp)]
    simp [step, stepN, accept, Ctx.opens, openElems, openElems.go, sReg, hr]

theorem steps_cnodes (l : List Nat) (r : MCon α) (hr : r.elems.nodes = []) :
    steps env .contact (sCon L n r ms ds) (elemToks .begNode .endNode (l.map fun i => [i])) =
      some (.elems .cnode [], sCon L n { r with elems := { r.elems with nodes := l } } ms ds) := by
  rw [steps_elems env (fun r => sCon L n r ms ds) .begNode .endNode .cnode
    (fun r x => { r with elems := { r.elems with nodes := r.elems.nodes ++ [x.headD 0] } }) _
    (by simp [Elem.arity]) _ r _ rfl]
  · have : ∀ (l : List Nat) (r : MCon α),
        (l.map fun i => [i]).foldl (fun (r : MCon α) x =>
          { r with elems := { r.elems with nodes := r.elems.nodes ++ [x.headD 0] } }) r =
          { r with elems := { r.elems with nodes := r.elems.nodes ++ l } } := by
      intro l
      induction l with
      | nil => intro r; simp
      | cons a l ih => intro r; simp only [List.map_cons, List.foldl_cons, ih]; simp
    rw [this, hr, List.nil_append]
  · intro b x hx
    simp only [List.mem_map] at hx
    obtain ⟨i, -, rfl⟩ := hx
    rfl
  · simp [step, stepN, accept, Ctx.opens, openElems, openElems.go, sCon, hr]

theorem steps_inodes (l : List (Nat × Nat)) (r : MIfc α) (hr : r.pairs = []) :
    steps env .iface (sIfc L n r ms ds) (elemToks .begNode .endNode (l.map fun p => [p.1, p.2])) =
      some (.elems .inode [], sIfc L n { r with pairs := l } ms ds) := by
  rw [steps_elems env (fun r => sIfc L n r ms ds) .begNode .endNode .inode
    (fun r x => { r with pairs := r.pairs ++ [(x.headD 0, x.tail.headD 0)] }) _
    (by simp only [List.mem_map]; rintro _ ⟨p, -, rfl⟩; rfl) _ r _ rfl]
  · have : ∀ (l : List (Nat × Nat)) (r : MIfc α),
        (l.map fun p => [p.1, p.2]).foldl (fun (r : MIfc α) x =>
          { r with pairs := r.pairs ++ [(x.headD 0, x.tail.headD 0)] }) r =
          { r with pairs := r.pairs ++ l } := by
      intro l
      induction l with
      | nil => intro r; simp
      | cons a l ih => intro r; simp only [List.map_cons, List.foldl_cons, ih]; simp
    rw [this, hr, List.nil_append]
  · intro b x hx
    simp only [List.mem_map] at hx
    obtain ⟨i, -, rfl⟩ := hx
    rfl
  · simp [step, stepN, accept, Ctx.opens, openElems, openElems.go, sIfc, hr]

/-! ### Solutions -/

/-- A solution with data. -/
def dSol (k : MK) (vals : List α) : Sol α := { kind := k, dt := .data, vals := vals }

/-- One solution with its keywords, of nodes (`b = true`) or edges. -/
theorem steps_sol (F : Fmt α) (b : Bool) (nm : Text) (vals : List α) (r : MReg α) (hn : r.sols.has nm = false)
    {c : Ctx α} (h : InReg c) :
    steps env c (sReg L n r ms ds)
      (.kw (if b then .begNodeSol else .begEdgeSol) :: .word nm ::
        (vals.map fun x => Tok.float (F.fmt x)) ++ [.kw (if b then .endNodeSol else .endEdgeSol)]) =
      some (.sol (if b then .node else .edge), sReg L n { r with sols := r.sols.put nm (dSol (if b then .node else .edge) (vals.map fun x => env.atof (F.fmt x))) } ms ds) := by
  have h1 : step env (sReg L n r ms ds) c (.kw (if b then .begNodeSol else .begEdgeSol)) =
      .ok (.hdr (if b then .begNodeSol else .begEdgeSol) []) (sReg L n r ms ds) := by
    rw [step_inReg env _ h (by cases b <;> simp)]
    cases b <;> rfl
  have h2 : step env (sReg L n r ms ds) (.hdr (if b then .begNodeSol else .begEdgeSol) []) (.word nm) =
      .ok (.sol (if b then .node else .edge)) { sReg L n r ms ds with
        sol := some (nm, dSol (if b then .node else .edge) []) } := by
    cases b <;> simp [step, stepN, accept, Kw.words, openSec, newSol, sReg, hn, dSol]
  have h3 : ∀ (vals : List α) (v : Sol α),
      steps env (.sol (if b then .node else .edge)) { sReg L n r ms ds with sol := some (nm, v) }
        (vals.map fun x => Tok.float (F.fmt x)) =
      some (.sol (if b then .node else .edge), { sReg L n r ms ds with
        sol := some (nm, { v with vals := v.vals ++ vals.map fun x => env.atof (F.fmt x) }) }) := by
    intro vals
    induction vals with
    | nil => intro v; simp [steps]
    | cons x xs ih =>
      intro v
      have : step env { sReg L n r ms ds with sol := some (nm, v) } (.sol (if b then .node else .edge))
          (.float (F.fmt x)) = .ok (.sol (if b then .node else .edge)) { sReg L n r ms ds with
            sol := some (nm, { v with vals := v.vals ++ [env.atof (F.fmt x)] }) } := by rfl
      simp only [List.map_cons, steps, this, ih]
      simp
  simp only [List.cons_append, steps, h1, h2]
  rw [steps_append env (h3 vals _)]
  cases b <;> rfl

/-- Solutions put one after the other. -/
def putSols (k : MK) (ρ : α → α) (m : SMap Text (Sol α)) (l : List (Text × List α)) : SMap Text (Sol α) :=
  l.foldl (fun m e => m.put e.1 (dSol k (e.2.map ρ))) m

theorem has_put {m : SMap Text (Sol α)} {k k' : Text} {v : Sol α} (h : k ≠ k') (hm : m.has k' = false) :
    (m.put k v).has k' = false := by
  rw [← Bool.not_eq_true, SMap.has_iff]
  rintro ⟨w, hw⟩
  rcases SMap.mem_put hw with h1 | h1
  · exact h (by simpa using (congrArg Prod.fst h1).symm)
  · have : m.has k' = true := SMap.has_iff.2 ⟨w, h1⟩
    rw [hm] at this; exact absurd this (by simp)

theorem steps_sols (F : Fmt α) (b : Bool) (l : List (Text × List α)) (hl : (l.map Prod.fst).Nodup) :
    ∀ (r : MReg α), (∀ e ∈ l, r.sols.has e.1 = false) → ∀ {c : Ctx α}, InReg c →
    ∃ c', InReg c' ∧ steps env c (sReg L n r ms ds)
      (modelToks F (if b then .begNodeSol else .begEdgeSol) (if b then .endNodeSol else .endEdgeSol) l) =
      some (c', sReg L n { r with sols := putSols (if b then .node else .edge) (fun x => env.atof (F.fmt x)) r.sols l } ms ds) := by
  induction l with
  | nil => intro r _ c h; exact ⟨c, h, rfl⟩
  | cons m l ih =>
    intro r hr c h
    have h1 := steps_sol env L n ms ds F b m.1 m.2 r (hr m (by simp)) h
    simp only [List.map_cons, List.nodup_cons] at hl
    obtain ⟨c', hc', h2⟩ := ih hl.2 { r with sols := r.sols.put m.1 (dSol (if b then .node else .edge) (m.2.map fun x => env.atof (F.fmt x))) }
      (fun e he => has_put (fun h => hl.1 (by rw [h]; exact List.mem_map_of_mem he)) (hr e (by simp [he])))
      (c := .sol (if b then .node else .edge)) (by cases b; exact .edge; exact .node)
    refine ⟨c', hc', ?_⟩
    have e1 : modelToks F (if b then .begNodeSol else .begEdgeSol) (if b then .endNodeSol else .endEdgeSol) (m :: l) =
      (.kw (if b then .begNodeSol else .begEdgeSol) :: .word m.1 ::
        (m.2.map fun x => Tok.float (F.fmt x)) ++ [.kw (if b then .endNodeSol else .endEdgeSol)]) ++
      modelToks F (if b then .begNodeSol else .begEdgeSol) (if b then .endNodeSol else .endEdgeSol) l := by
      simp [modelToks]
    rw [e1, steps_append env h1, h2]
    rfl

/-! ### Regions, contacts, interfaces -/

/-- Two words after the keyword of a region. -/
theorem steps_begRegion (mat : Text) {c : Ctx α} (h : InDev c) (hn : L.regions.has n = false) :
    steps env c (sDev L ms ds) [.kw .begRegion, .word n, .word mat] =
      some (.region, sReg L n { material := mat } ms ds) := by
  have h1 : step env (sDev L ms ds) c (.kw .begRegion) = .ok (.hdr .begRegion []) (sDev L ms ds) := by
    rw [step_inDev env _ h (by simp)]; rfl
  have h2 : step env (sDev L ms ds) (.hdr .begRegion []) (.word n) = .ok (.hdr .begRegion [n]) (sDev L ms ds) := rfl
  have h3 : step env (sDev L ms ds) (.hdr .begRegion [n]) (.word mat) =
      .ok .region (sReg L n { material := mat } ms ds) := by
    simp [step, stepN, accept, Kw.words, openSec, sDev, sReg, hn]
  simp only [steps, h1, h2, h3]

theorem steps_begContact (rn mat : Text) {c : Ctx α} (h : InDev c) (hn : L.contacts.has n = false) :
    steps env c (sDev L ms ds) [.kw .begContact, .word n, .word rn, .word mat] =
      some (.contact, sCon L n { region := rn, material := mat } ms ds) := by
  have h1 : step env (sDev L ms ds) c (.kw .begContact) = .ok (.hdr .begContact []) (sDev L ms ds) := by
    rw [step_inDev env _ h (by simp)]; rfl
  have h2 : step env (sDev L ms ds) (.hdr .begContact []) (.word n) = .ok (.hdr .begContact [n]) (sDev L ms ds) := rfl
  have h2' : step env (sDev L ms ds) (.hdr .begContact [n]) (.word rn) =
    .ok (.hdr .begContact [n, rn]) (sDev L ms ds) := rfl
  have h3 : step env (sDev L ms ds) (.hdr .begContact [n, rn]) (.word mat) =
      .ok .contact (sCon L n { region := rn, material := mat } ms ds) := by
    simp [step, stepN, accept, Kw.words, openSec, sDev, sCon, hn]
  simp only [steps, h1, h2, h2', h3]

theorem steps_begIface (r0 r1 : Text) {c : Ctx α} (h : InDev c) (hn : L.ifaces.has n = false) :
    steps env c (sDev L ms ds) [.kw .begIface, .word n, .word r0, .word r1] =
      some (.iface, sIfc L n { region0 := r0, region1 := r1 } ms ds) := by
  have h1 : step env (sDev L ms ds) c (.kw .begIface) = .ok (.hdr .begIface []) (sDev L ms ds) := by
    rw [step_inDev env _ h (by simp)]; rfl
  have h2 : step env (sDev L ms ds) (.hdr .begIface []) (.word n) = .ok (.hdr .begIface [n]) (sDev L ms ds) := rfl
  have h2' : step env (sDev L ms ds) (.hdr .begIface [n]) (.word r0) =
    .ok (.hdr .begIface [n, r0]) (sDev L ms ds) := rfl
  have h3 : step env (sDev L ms ds) (.hdr .begIface [n, r0]) (.word r1) =
      .ok .iface (sIfc L n { region0 := r0, region1 := r1 } ms ds) := by
    simp [step, stepN, accept, Kw.words, openSec, sDev, sIfc, hn]
  simp only [steps, h1, h2, h2', h3]

/-- The elements and the models of a region as the file must have them. -/
structure FileReg (r : Reg α) : Prop where
  edges : ∀ l ∈ r.edges, l.length = 2 ∧ l.Pairwise (· < ·)
  tris : ∀ l ∈ r.tris, l.length = 3 ∧ l.Pairwise (· < ·)
  tets : ∀ l ∈ r.tets, l.length = 4 ∧ l.Pairwise (· < ·)
  nodup : ((r.nm.map Prod.fst) ++ (r.em.map Prod.fst)).Nodup

/-- The region that the file describes. -/
def mreg (F : Fmt α) (d : Dev α) (rn : Text) (r : Reg α) : MReg α :=
  { material := r.material, nodes := r.nodes, edges := r.edges, tris := r.tris, tets := r.tets
    sols := putSols .edge (fun x => env.atof (F.fmt x))
      (putSols .node (fun x => env.atof (F.fmt x)) [] (modelVals F d rn r .node)) (modelVals F d rn r .edge) }

theorem putSols_has (k : MK) (ρ : α → α) (l : List (Text × List α)) : ∀ (m : SMap Text (Sol α)) (x : Text),
    m.has x = false → x ∉ l.map Prod.fst → (putSols k ρ m l).has x = false := by
  induction l with
  | nil => intro m x h _; exact h
  | cons e l ih =>
    intro m x h hx
    simp only [List.map_cons, List.mem_cons, not_or] at hx
    exact ih _ x (has_put (Ne.symm hx.1) h) hx.2

theorem modelVals_fst (F : Fmt α) (d : Dev α) (rn : Text) (r : Reg α) (k : MK) :
    (modelVals F d rn r k).map Prod.fst = (r.models k).map Prod.fst := by
  simp [modelVals, List.map_map, Function.comp_def]

theorem steps_region (F : Fmt α) (d : Dev α) (r : Reg α) (hr : FileReg r) {c : Ctx α} (h : InDev c)
    (hn : L.regions.has n = false) :
    steps env c (sDev L ms ds) (regionToks F d n r) =
      some (.region, sDev { L with regions := L.regions.put n (mreg env F d n r) } ms ds) := by
  have hnd := List.nodup_append.1 hr.nodup
  unfold regionToks
  rw [steps_append env (steps_begRegion env L n ms ds r.material h hn),
    steps_append env (steps_rnodes env L n ms ds r.nodes { material := r.material } .region rfl),
    steps_append env (steps_redges env L n ms ds r.edges hr.edges { material := r.material, nodes := r.nodes }
      (.elems rfl) rfl)]
  have ht : ∃ c', InReg c' ∧ steps env (.elems .redge []) (sReg L n { material := r.material, nodes := r.nodes, edges := r.edges } ms ds)
      (if r.tris.isEmpty then [] else elemToks .begTri .endTri r.tris) =
      some (c', sReg L n { material := r.material, nodes := r.nodes, edges := r.edges, tris := r.tris } ms ds) := by
    cases e : r.tris with
    | nil => exact ⟨_, .elems rfl, rfl⟩
    | cons a l =>
      refine ⟨_, .elems (e := .rtri) rfl, ?_⟩
      rw [← e, if_neg (by simp [e])]
      exact steps_rtris env L n ms ds r.tris hr.tris _ (.elems rfl) rfl
  obtain ⟨c1, hc1, ht⟩ := ht
  rw [steps_append env ht]
  have hu : ∃ c', InReg c' ∧ steps env c1 (sReg L n { material := r.material, nodes := r.nodes, edges := r.edges, tris := r.tris } ms ds)
      (if r.tets.isEmpty then [] else elemToks .begTet .endTet r.tets) =
      some (c', sReg L n { material := r.material, nodes := r.nodes, edges := r.edges, tris := r.tris, tets := r.tets } ms ds) := by
    cases e : r.tets with
    | nil => exact ⟨_, hc1, rfl⟩
    | cons a l =>
      refine ⟨_, .elems (e := .rtet) rfl, ?_⟩
      rw [← e, if_neg (by simp [e])]
      exact steps_rtets env L n ms ds r.tets hr.tets _ hc1 rfl
  obtain ⟨c2, hc2, hu⟩ := hu
  rw [steps_append env hu]
  obtain ⟨c3, hc3, h3⟩ := steps_sols env L n ms ds F true (modelVals F d n r .node)
    (by rw [modelVals_fst]; exact hnd.1)
    { material := r.material, nodes := r.nodes, edges := r.edges, tris := r.tris, tets := r.tets }
    (fun _ _ => rfl) hc2
  simp only [if_true] at h3
  rw [steps_append env h3]
  obtain ⟨c4, hc4, h4⟩ := steps_sols env L n ms ds F false (modelVals F d n r .edge)
    (by rw [modelVals_fst]; exact hnd.2.1)
    { material := r.material, nodes := r.nodes, edges := r.edges, tris := r.tris, tets := r.tets,
      sols := putSols .node (fun x => env.atof (F.fmt x)) [] (modelVals F d n r .node) }
    (fun e he => putSols_has _ _ _ _ _ rfl (by
      rw [modelVals_fst]
      intro hmem
      have : e.1 ∈ (r.models .edge).map Prod.fst := by rw [← modelVals_fst F d n]; exact List.mem_map_of_mem he
      exact hnd.2.2 _ hmem _ this rfl)) hc3
  simp only [Bool.false_eq_true, if_false] at h4
  rw [steps_append env h4]
  have h5 : ∀ r' : MReg α, step env (sReg L n r' ms ds) c4 (.kw .endRegion) =
      .ok .region (sDev { L with regions := L.regions.put n r' } ms ds) := by
    intro r'
    rw [step_inReg env _ hc4 (by simp)]
    rfl
  simp only [steps, h5]
  rfl

/-- The contact that the file describes. -/
def mcon (k : Con) : MCon α :=
  { region := k.region, material := k.material, elems := { material := [], nodes := k.nodes } }

/-- The interface that the file describes. -/
def mifc (k : Ifc) : MIfc α :=
  { region0 := k.region0, region1 := k.region1, pairs := k.nodes0.zip k.nodes1 }

theorem steps_contact (k : Con) {c : Ctx α} (h : InDev c) (hn : L.contacts.has n = false) :
    steps env c (sDev L ms ds) (contactToks n k) =
      some (.contact, sDev { L with contacts := L.contacts.put n (mcon k) } ms ds) := by
  unfold contactToks
  rw [steps_append env (steps_begContact env L n ms ds k.region k.material h hn),
    steps_append env (steps_cnodes env L n ms ds k.nodes { region := k.region, material := k.material } rfl)]
  rfl

theorem steps_iface (k : Ifc) {c : Ctx α} (h : InDev c) (hn : L.ifaces.has n = false) :
    steps env c (sDev L ms ds) (ifaceToks n k) =
      some (.iface, sDev { L with ifaces := L.ifaces.put n (mifc k) } ms ds) := by
  unfold ifaceToks
  rw [steps_append env (steps_begIface env L n ms ds k.region0 k.region1 h hn),
    steps_append env (steps_inodes env L n ms ds (k.nodes0.zip k.nodes1)
      { region0 := k.region0, region1 := k.region1 } rfl)]
  rfl

/-! ### Coordinates -/

theorem steps_coords (F : Fmt α) (cs : List (α × α × α)) (hL : L.coords = []) :
    steps env .device (sDev L ms ds) (coordToks F cs) = some (.coords [], sDev { L with coords := cs.map fun c =>
      (env.atof (F.fmt c.1), env.atof (F.fmt c.2.1), env.atof (F.fmt c.2.2)) } ms ds) := by
  have key : ∀ (cs : List (α × α × α)) (L : Loader α), steps env (.coords []) (sDev L ms ds)
      (cs.flatMap fun c => [.float (F.fmt c.1), .float (F.fmt c.2.1), .float (F.fmt c.2.2)]) =
      some (.coords [], sDev { L with coords := L.coords ++ cs.map fun c =>
        (env.atof (F.fmt c.1), env.atof (F.fmt c.2.1), env.atof (F.fmt c.2.2)) } ms ds) := by
    intro cs
    induction cs with
    | nil => intro L; simp [steps]
    | cons c cs ih =>
      intro L
      have h1 : steps env (.coords []) (sDev L ms ds) [.float (F.fmt c.1), .float (F.fmt c.2.1), .float (F.fmt c.2.2)] =
          some (.coords [], sDev { L with coords := L.coords ++ [(env.atof (F.fmt c.1), env.atof (F.fmt c.2.1),
            env.atof (F.fmt c.2.2))] } ms ds) := rfl
      simp only [List.flatMap_cons]
      rw [steps_append env h1, ih]
      simp
  have h1 : step env (sDev L ms ds) .device (.kw .begCoord) = .ok (.coords []) (sDev L ms ds) := rfl
  simp only [coordToks, List.cons_append, steps, h1]
  rw [steps_append env (key cs L), hL]
  rfl

/-! ### A device -/

/-- Sections, one for each entry of a map, that put the entries into a map. -/
theorem steps_sections {β γ : Type} (S : SMap Text γ → Sess α) (toks : Text → β → List Tok) (g : Text → β → γ)
    (cx : Ctx α) (m : SMap Text β) (hm : SMap.Sorted m)
    (hstep : ∀ e ∈ m, ∀ (a : SMap Text γ) (c : Ctx α), InDev c → a.has e.1 = false →
      steps env c (S a) (toks e.1 e.2) = some (cx, S (a.put e.1 (g e.1 e.2)))) (hcx : InDev cx) :
    ∀ {c : Ctx α}, InDev c → ∃ c', InDev c' ∧ steps env c (S []) (m.flatMap fun e => toks e.1 e.2) =
      some (c', S (m.map fun e => (e.1, g e.1 e.2))) := by
  have key : ∀ (m : SMap Text β) (a : SMap Text γ), SMap.Sorted m → (∀ x ∈ a, ∀ e ∈ m, x.1 < e.1) →
      (∀ e ∈ m, ∀ (a : SMap Text γ) (c : Ctx α), InDev c → a.has e.1 = false →
        steps env c (S a) (toks e.1 e.2) = some (cx, S (a.put e.1 (g e.1 e.2)))) →
      ∀ {c : Ctx α}, InDev c → ∃ c', InDev c' ∧ steps env c (S a) (m.flatMap fun e => toks e.1 e.2) =
        some (c', S (a ++ m.map fun e => (e.1, g e.1 e.2))) := by
    intro m
    induction m with
    | nil => intro a _ _ _ c hc; exact ⟨c, hc, by simp [steps]⟩
    | cons e m ih =>
      intro a hm ha hst c hc
      have hm' := List.pairwise_cons.1 hm
      have hlt : ∀ x ∈ a, x.1 < e.1 := fun x hx => ha x hx e (by simp)
      have h1 := hst e (by simp) a c hc (SMap.has_false_of_lt hlt)
      rw [SMap.put_last hlt] at h1
      obtain ⟨c', hc', h2⟩ := ih (a ++ [(e.1, g e.1 e.2)]) hm'.2
        (by
          intro x hx y hy
          rcases List.mem_append.1 hx with hx | hx
          · exact ha x hx y (by simp [hy])
          · simp only [List.mem_singleton] at hx
            subst hx
            exact hm'.1 y hy)
        (fun x hx => hst x (by simp [hx])) hcx
      refine ⟨c', hc', ?_⟩
      simp only [List.flatMap_cons]
      rw [steps_append env h1, h2]
      simp
  intro c hc
  simpa using key m [] hm (by simp) hstep hc

/-- The mesh that the file describes. -/
def mloader (F : Fmt α) (dn : Text) (d : Dev α) : Loader α :=
  { name := dn
    coords := d.coords.map fun c => (env.atof (F.fmt c.1), env.atof (F.fmt c.2.1), env.atof (F.fmt c.2.2))
    regions := d.regions.map fun e => (e.1, mreg env F d e.1 e.2)
    contacts := d.contacts.map fun e => (e.1, mcon e.2)
    ifaces := d.ifaces.map fun e => (e.1, mifc e.2) }

/-- Reading the tokens of a device up to `end_device`: the mesh is complete. -/
theorem steps_prefix (F : Fmt α) (dn : Text) (d : Dev α) (hr : ∀ e ∈ d.regions, FileReg e.2)
    (sr : SMap.Sorted d.regions) (sc : SMap.Sorted d.contacts) (si : SMap.Sorted d.ifaces)
    (hms : dn ∉ ms) {c : Ctx α} (hc : c = .all ∨ c = .device) :
    ∃ c', InDev c' ∧ steps env c (sIdle ms ds) (prefixToks F dn d) =
      some (c', sDev (mloader env F dn d) (dn :: ms) ds) := by
  have h0 : steps env c (sIdle ms ds) [.kw .begDevice, .word dn] =
      some (.device, sDev { name := dn } (dn :: ms) ds) := by
    have h1 : step env (sIdle ms ds) c (.kw .begDevice) = .ok (.hdr .begDevice []) (sIdle ms ds) := by
      rcases hc with rfl | rfl <;> rfl
    have h2 : step env (sIdle ms ds) (.hdr .begDevice []) (.word dn) =
        .ok .device (sDev { name := dn } (dn :: ms) ds) := by
      simp [step, stepN, accept, Kw.words, openSec, sIdle, sDev, hms]
    simp only [steps, h1, h2]
  unfold prefixToks
  obtain ⟨c1, hc1, h1⟩ := steps_sections env
    (fun a => sDev { name := dn, coords := (mloader env F dn d).coords, regions := a } (dn :: ms) ds)
    (regionToks F d) (mreg env F d) .region d.regions sr
    (fun e he a c hc ha => steps_region env _ e.1 _ ds F d e.2 (hr e he) hc ha) .region .coords
  obtain ⟨c2, hc2, h2⟩ := steps_sections env
    (fun a => sDev { name := dn, coords := (mloader env F dn d).coords,
                     regions := (mloader env F dn d).regions, contacts := a } (dn :: ms) ds)
    contactToks (fun _ k => mcon k) .contact d.contacts sc
    (fun e he a c hc ha => steps_contact env _ e.1 _ ds e.2 hc ha) .contact hc1
  obtain ⟨c3, hc3, h3⟩ := steps_sections env
    (fun a => sDev { name := dn, coords := (mloader env F dn d).coords,
                     regions := (mloader env F dn d).regions, contacts := (mloader env F dn d).contacts,
                     ifaces := a } (dn :: ms) ds)
    ifaceToks (fun _ k => mifc k) .iface d.ifaces si
    (fun e he a c hc ha => steps_iface env _ e.1 _ ds e.2 hc ha) .iface hc2
  refine ⟨c3, hc3, ?_⟩
  rw [steps_append env h0, steps_append env (steps_coords env { name := dn } (dn :: ms) ds F d.coords rfl)]
  refine (steps_append env h1).trans ?_
  refine (steps_append env h2).trans ?_
  exact h3

theorem steps_device (F : Fmt α) (dn : Text) (d : Dev α) (hr : ∀ e ∈ d.regions, FileReg e.2)
    (sr : SMap.Sorted d.regions) (sc : SMap.Sorted d.contacts) (si : SMap.Sorted d.ifaces)
    (hms : dn ∉ ms) {c : Ctx α} (hc : c = .all ∨ c = .device) :
    steps env c (sIdle ms ds) (deviceToks F dn d) =
      match endDevice env (sDev (mloader env F dn d) (dn :: ms) ds) with
      | .ok c' s' => some (c', s')
      | _ => none := by
  obtain ⟨c3, hc3, h⟩ := steps_prefix env ms ds F dn d hr sr sc si hms hc
  rw [deviceToks_prefix, steps_append env h]
  have h4 : ∀ s : Sess α, step env s c3 (.kw .endDevice) = endDevice env s := by
    intro s
    rw [step_inDev env _ hc3 (by simp)]
    rfl
  simp only [steps, h4]

end

end Verif.MeshIO
