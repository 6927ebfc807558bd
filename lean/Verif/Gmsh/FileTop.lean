import Verif.Gmsh.FileLex

/-!
# C71: `create_gmsh_mesh` with a file
-/

namespace Verif.Gmsh.File
open Verif.MeshIO (Text SMap Env isWs Next showNat intVal isFloat)

variable {α : Type}

/-! ### Specification: a file in the format of Gmsh, version 2 -/

/-- What a file says. An element has an index, and tags after its physical number. `counts` are the numbers of names,
nodes and elements that the file announces. -/
structure Doc where
  version : Text
  counts : Nat × Nat × Nat
  names : List (Nat × Nat × Text)
  nodes : List (Nat × Text × Text × Text)
  elems : List (Nat × Elem × List Nat)

/-- A line of integers. -/
def intLine : List Nat → Text
  | [] => ['\n']
  | a :: l => showNat a ++ (l.flatMap fun b => ' ' :: showNat b) ++ ['\n']

def nameLine (x : Nat × Nat × Text) : Text :=
  showNat x.1 ++ (' ' :: showNat x.2.1) ++ (' ' :: ('"' :: (x.2.2 ++ ['"']))) ++ ['\n']

def nodeLine (x : Nat × Text × Text × Text) : Text :=
  showNat x.1 ++ (' ' :: x.2.1) ++ (' ' :: x.2.2.1) ++ (' ' :: x.2.2.2) ++ ['\n']

/-- The number that stands for the type of an element in a file. -/
def typeNum (ty : Nat) : Nat := if ty = 0 then 15 else if ty = 1 then 1 else if ty = 2 then 2 else 4

/-- The integers of an element: index, type, number of tags, tags, nodes. -/
def elemInts (x : Nat × Elem × List Nat) : List Nat :=
  x.1 :: typeNum x.2.1.ty :: (x.2.2.length + 1) :: x.2.1.phys :: (x.2.2 ++ x.2.1.nodes)

def elemLine (x : Nat × Elem × List Nat) : Text := intLine (elemInts x)

/-- The file. -/
def render (d : Doc) : Text :=
  "$MeshFormat".toList ++ ['\n'] ++ (d.version ++ ['\n']) ++ ("$EndMeshFormat".toList ++ ['\n']) ++
  ("$PhysicalNames".toList ++ ['\n']) ++ intLine [d.counts.1] ++ d.names.flatMap nameLine ++ ("$EndPhysicalNames".toList ++ ['\n']) ++
  ("$Nodes".toList ++ ['\n']) ++ intLine [d.counts.2.1] ++ d.nodes.flatMap nodeLine ++ ("$EndNodes".toList ++ ['\n']) ++
  ("$Elements".toList ++ ['\n']) ++ intLine [d.counts.2.2] ++ d.elems.flatMap elemLine ++ ("$EndElements".toList ++ ['\n'])

/-- The files of Gmsh: version 2.1 or 2.2, dimensions up to 3, positive indices, one name for each dimension and number,
elements with as many nodes as their type says. All integers fit into an `int`. Nothing is said about the counts. -/
structure DocOK (d : Doc) : Prop where
  version : d.version = "2.2 0 8".toList ∨ d.version = "2.1 0 8".toList
  names : ∀ x ∈ d.names, x.1 ≤ 3 ∧ 1 ≤ x.2.1 ∧ isName x.2.2 = true
  unique : d.names.Pairwise fun x y => (x.1, x.2.1) ≠ (y.1, y.2.1)
  nodes : ∀ x ∈ d.nodes, 1 ≤ x.1 ∧ IsNum x.2.1 ∧ IsNum x.2.2.1 ∧ IsNum x.2.2.2
  elems : ∀ x ∈ d.elems, 1 ≤ x.1 ∧ x.2.1.Proper ∧ 1 ≤ x.2.1.phys ∧ ∀ c ∈ x.2.1.nodes, 1 ≤ c
  small : (∀ x ∈ d.names, x.2.1 < 2147483648) ∧ (∀ x ∈ d.nodes, x.1 < 2147483648) ∧
    ∀ x ∈ d.elems, ∀ i ∈ elemInts x, i < 2147483648

/-- The value of a coordinate. -/
def value (env : Env α) (x : Text) : α := if isFloat x = true then env.atof x else env.ofInt (intVal x)

/-- The mesh that the file describes. -/
structure Read (env : Env α) (d : Doc) (G : Gmsh α) : Prop where
  names : ∀ k i w, (G.phys k).get i = some w ↔ (k, i, w) ∈ d.names
  coords : G.coords = d.nodes.map fun x => (x.1, value env x.2.1, value env x.2.2.1, value env x.2.2.2)
  elems : G.elems = d.elems.map fun x => x.2.1

/-! ### Runs of the parser -/

def runs (env : Env α) : St α → Gmsh α → List Tok → Option (St α × Gmsh α)
  | st, G, [] => some (st, G)
  | st, G, t :: ts => if t = .eof then none else (step env st t G).bind fun r => runs env r.1 r.2 ts

theorem runs_append (env : Env α) (st : St α) (G : Gmsh α) (ts us : List Tok) :
    runs env st G (ts ++ us) = (runs env st G ts).bind fun r => runs env r.1 r.2 us := by
  induction ts generalizing st G with
  | nil => rfl
  | cons t ts ih =>
    rw [List.cons_append, runs, runs]
    split
    · rfl
    · cases step env st t G with
      | none => rfl
      | some r => exact ih _ _

theorem parse_runs (env : Env α) (e : Stk) (st : St α) (G : Gmsh α) (ts : List (Tok × Stk)) {st' : St α} {G' : Gmsh α}
    (h : runs env st G (ts.map Prod.fst) = some (st', G')) : parse env e st G ts = (st'.final, G', e) := by
  induction ts generalizing st G with
  | nil =>
    simp only [List.map_nil, runs, Option.some.injEq, Prod.mk.injEq] at h
    rw [parse, h.1, h.2]
  | cons t ts ih =>
    obtain ⟨t, s⟩ := t
    rw [List.map_cons, runs] at h
    split at h
    · simp at h
    · rename_i hne
      rw [parse, if_neg hne]
      cases hs : step env st t G with
      | none => rw [hs] at h; simp at h
      | some r =>
        rw [hs] at h
        exact ih _ _ h

/-! ### Lines -/

theorem next_blank (x rest : Text) : Next isWs ((' ' :: x) ++ rest) := ⟨' ', x ++ rest, rfl, Or.inl (by decide)⟩

theorem next_eol (rest : Text) : Next isWs (['\n'] ++ rest) := ⟨'\n', rest, rfl, Or.inr rfl⟩

theorem lexes_spnat {s : Stk} (n : Nat) (hs : s.cur = .names ∨ s.cur = .nodes ∨ s.cur = .elems) :
    Lexes s false (' ' :: showNat n) [.int n] s false (Next isWs) := by
  obtain ⟨d, ds, e, hd⟩ := Verif.MeshIO.showNat_first n
  have := lexes_nat (b := false) n hs
  rw [e] at this ⊢
  exact lexes_sp (digit_no_ws hd) this

theorem lexes_spnum {s : Stk} {x : Text} (hx : IsNum x) (hs : s.cur = .nodes) :
    Lexes s false (' ' :: x) [numTok x] s false (Next isWs) := by
  have := lexes_num (b := false) hx hs
  obtain ⟨c, cs, rfl, hc⟩ := num_first hx
  exact lexes_sp hc this

theorem lexes_ints {s : Stk} (l : List Nat) (hs : s.cur = .names ∨ s.cur = .nodes ∨ s.cur = .elems) :
    LexA s false ((l.flatMap fun b => ' ' :: showNat b) ++ ['\n']) (l.map (fun b : Nat => Tok.int b) ++ [.eol]) s true := by
  induction l with
  | nil => exact lexes_eol s false
  | cons a l ih =>
    rw [List.flatMap_cons, List.map_cons, List.append_assoc, List.cons_append (a := Tok.int a)]
    refine (lexes_spnat a hs).append ih ?_
    intro rest _
    cases l with
    | nil => exact next_eol rest
    | cons b l =>
      rw [List.flatMap_cons, List.append_assoc, List.append_assoc]
      exact next_blank _ _

theorem lexes_intLine {s : Stk} (a : Nat) (l : List Nat) (hs : s.cur = .names ∨ s.cur = .nodes ∨ s.cur = .elems) :
    LexA s true (intLine (a :: l)) ((a :: l).map (fun b : Nat => Tok.int b) ++ [.eol]) s true := by
  show LexA s true (showNat a ++ (l.flatMap fun b => ' ' :: showNat b) ++ ['\n']) _ s true
  rw [List.append_assoc, List.map_cons, List.cons_append (a := Tok.int a)]
  refine (lexes_nat a hs).append (lexes_ints l hs) ?_
  intro rest _
  cases l with
  | nil => exact next_eol rest
  | cons b l =>
    rw [List.flatMap_cons, List.append_assoc, List.append_assoc]
    exact next_blank _ _

theorem lexes_nameLine {s : Stk} {x : Nat × Nat × Text} (hw : isName x.2.2 = true) (hs : s.cur = .names) :
    LexA s true (nameLine x) [.int x.1, .int x.2.1, .word x.2.2, .eol] s true := by
  have h1 := lexes_nat (b := true) x.1 (Or.inl hs)
  have h2 := lexes_spnat x.2.1 (Or.inl hs)
  have h3 := lexes_sp (by rintro (h | h) <;> revert h <;> decide) (lexes_quoted hw hs)
  exact ((h1.append h2 fun _ _ => next_blank _ _).append h3 fun _ _ => next_blank _ _).append (lexes_eol s false)
    fun _ _ => next_eol _

theorem lexes_nodeLine {s : Stk} {x : Nat × Text × Text × Text} (h1 : IsNum x.2.1) (h2 : IsNum x.2.2.1) (h3 : IsNum x.2.2.2)
    (hs : s.cur = .nodes) :
    LexA s true (nodeLine x) [.int x.1, numTok x.2.1, numTok x.2.2.1, numTok x.2.2.2, .eol] s true := by
  have h0 := lexes_nat (b := true) x.1 (Or.inr (Or.inl hs))
  exact (((h0.append (lexes_spnum h1 hs) fun _ _ => next_blank _ _).append (lexes_spnum h2 hs) fun _ _ => next_blank _ _).append
    (lexes_spnum h3 hs) fun _ _ => next_blank _ _).append (lexes_eol s false) fun _ _ => next_eol _

/-! ### Sections -/

/-- The tokens of the names. -/
def nameToks (x : Nat × Nat × Text) : List Tok := [.int x.1, .int x.2.1, .word x.2.2, .eol]
def nodeToks (x : Nat × Text × Text × Text) : List Tok := [.int x.1, numTok x.2.1, numTok x.2.2.1, numTok x.2.2.2, .eol]
def elemToks (x : Nat × Elem × List Nat) : List Tok := (elemInts x).map (fun b : Nat => Tok.int b) ++ [.eol]

/-- A run that leads from one state to another, whatever comes next. -/
def Reach (env : Env α) (st : St α) (G : Gmsh α) (ts : List Tok) (st' : St α) (G' : Gmsh α) : Prop :=
  runs env st G ts = some (st', G')

theorem Reach.append {env : Env α} {st st' st'' : St α} {G G' G'' : Gmsh α} {ts us : List Tok}
    (h : Reach env st G ts st' G') (h' : Reach env st' G' us st'' G'') : Reach env st G (ts ++ us) st'' G'' := by
  unfold Reach at *
  rw [runs_append, h]
  exact h'

theorem reach_name (env : Env α) (G : Gmsh α) {x : Nat × Nat × Text} (h1 : x.1 ≤ 3) (h2 : 1 ≤ x.2.1)
    (h3 : (G.phys x.1).get x.2.1 = none) : Reach env .names G (nameToks x) .names (G.addPhys x.1 x.2.1 x.2.2) := by
  unfold Reach nameToks
  simp only [runs, step, reduceCtorEq, if_false, Option.bind_some, ne_eq, not_true_eq_false]
  rw [if_neg (by omega), if_neg (by omega), if_neg (by simp [hasName, h3])]
  simp

theorem reach_names (env : Env α) (l : List (Nat × Nat × Text)) (G : Gmsh α) (h : ∀ x ∈ l, x.1 ≤ 3 ∧ 1 ≤ x.2.1)
    (hu : l.Pairwise fun x y => (x.1, x.2.1) ≠ (y.1, y.2.1)) (hn : ∀ x ∈ l, (G.phys x.1).get x.2.1 = none) :
    ∃ ph, Reach env .names G (l.flatMap nameToks) .names { G with phys := ph } ∧
      ∀ k i w, (ph k).get i = some w ↔ (G.phys k).get i = some w ∨ (k, i, w) ∈ l := by
  induction l generalizing G with
  | nil => exact ⟨G.phys, rfl, by simp⟩
  | cons x l ih =>
    obtain ⟨h1, h2⟩ := h x (by simp)
    rw [List.pairwise_cons] at hu
    have hx := hn x (by simp)
    have hget : ∀ k i, ((G.addPhys x.1 x.2.1 x.2.2).phys k).get i =
        if k = x.1 ∧ i = x.2.1 then some x.2.2 else (G.phys k).get i := by
      intro k i
      simp only [Gmsh.addPhys]
      by_cases hk : k = x.1
      · simp only [hk, if_true, true_and, SMap.get_put]
      · simp [hk]
    obtain ⟨ph, r, hp⟩ := ih (G.addPhys x.1 x.2.1 x.2.2) (fun y hy => h y (by simp [hy])) hu.2 (by
      intro y hy
      rw [hget, if_neg, hn y (by simp [hy])]
      rintro ⟨a, b⟩
      exact hu.1 y hy (by rw [a, b]))
    refine ⟨ph, ?_, ?_⟩
    · rw [List.flatMap_cons]
      exact (reach_name env G h1 h2 hx).append r
    · intro k i w
      rw [hp, hget]
      obtain ⟨a, b, c⟩ := x
      simp only [List.mem_cons, Prod.mk.injEq]
      split_ifs with hk
      · obtain ⟨rfl, rfl⟩ := hk
        dsimp only at hx
        constructor
        · rintro (h | h)
          · exact Or.inr (Or.inl ⟨rfl, rfl, by simpa using h.symm⟩)
          · exact Or.inr (Or.inr h)
        · rintro (h | ⟨_, _, h⟩ | h)
          · rw [hx] at h; simp at h
          · exact Or.inl (by rw [h])
          · exact Or.inr h
      · constructor
        · rintro (h | h)
          · exact Or.inl h
          · exact Or.inr (Or.inr h)
        · rintro (h | ⟨h1, h2, h⟩ | h)
          · exact Or.inl h
          · exact absurd ⟨h1, h2⟩ hk
          · exact Or.inr h

theorem number_tok (env : Env α) (x : Text) : number env (numTok x) = some (value env x) := by
  unfold numTok value
  split <;> rfl

theorem numTok_ne (x : Text) : numTok x ≠ .eof := by
  unfold numTok
  split <;> simp

def nodeOf (env : Env α) (x : Nat × Text × Text × Text) : Nat × (α × α × α) :=
  (x.1, value env x.2.1, value env x.2.2.1, value env x.2.2.2)

theorem reach_nodes (env : Env α) (l : List (Nat × Text × Text × Text)) (G : Gmsh α) (h : ∀ x ∈ l, 1 ≤ x.1) :
    ∃ m, Reach env .nodes G (l.flatMap nodeToks) .nodes { G with coords := G.coords ++ l.map (nodeOf env), maxIdx := m } ∧
      G.maxIdx ≤ m ∧ ∀ x ∈ l, x.1 ≤ m := by
  induction l generalizing G with
  | nil => exact ⟨G.maxIdx, by simp [Reach, runs], le_refl _, by simp⟩
  | cons x l ih =>
    have h1 := h x (by simp)
    have r : Reach env .nodes G (nodeToks x) .nodes (G.addCoord x.1 (value env x.2.1, value env x.2.2.1, value env x.2.2.2)) := by
      unfold Reach nodeToks
      simp only [runs, step, reduceCtorEq, if_false, Option.bind_some, ne_eq, not_true_eq_false, numTok_ne, number_tok,
        Option.map_some]
      rw [if_neg (by omega)]
      simp
    obtain ⟨m, r', h2, h3⟩ := ih _ fun y hy => h y (by simp [hy])
    refine ⟨m, ?_, ?_, ?_⟩
    · rw [List.flatMap_cons]
      have := r.append r'
      simpa [Gmsh.addCoord, nodeOf] using this
    · refine le_trans ?_ h2
      simp only [Gmsh.addCoord]
      split_ifs <;> omega
    · intro y hy
      rcases List.mem_cons.1 hy with rfl | hy
      · refine le_trans ?_ h2
        simp only [Gmsh.addCoord]
        split_ifs <;> omega
      · exact h3 y hy

theorem proc_elem {x : Nat × Elem × List Nat} (h1 : 1 ≤ x.1) (h2 : x.2.1.Proper) (h3 : 1 ≤ x.2.1.phys)
    (h4 : ∀ c ∈ x.2.1.nodes, 1 ≤ c) : procElem ((elemInts x).map fun b : Nat => (b : Int)) = some x.2.1 := by
  obtain ⟨idx, ⟨ty, phys, nodes⟩, extra⟩ := x
  obtain ⟨h5, h6⟩ := h2
  simp only at h1 h3 h4 h5 h6
  simp only [elemInts, List.map_cons, procElem]
  have hty : elemType (typeNum ty : Nat) = some ty := by
    have : ty = 0 ∨ ty = 1 ∨ ty = 2 ∨ ty = 3 := by omega
    rcases this with h | h | h | h <;> subst h <;> rfl
  have c1 : ¬ ((idx : Int) < 1) := by omega
  have c2 : ¬ (((extra.length + 1 : Nat) : Int) < 1) := by push_cast; omega
  have c3 : ¬ (((phys : Int) :: List.map (fun b : Nat => (b : Int)) (extra ++ nodes)).length < 2) := by
    simp only [List.length_cons, List.length_map, List.length_append]; omega
  have c4 : ¬ (((phys : Int) :: List.map (fun b : Nat => (b : Int)) (extra ++ nodes)).headD 0 < 1) := by
    rw [List.headD_cons]; omega
  rw [if_neg c1, hty]
  dsimp only
  rw [if_neg c2, if_neg c3, if_neg c4]
  have hd : List.drop ((extra.length + 1 : Nat) : Int).toNat ((phys : Int) :: List.map (fun b : Nat => (b : Int)) (extra ++ nodes)) =
      nodes.map fun b : Nat => (b : Int) := by
    rw [Int.toNat_natCast, List.drop_succ_cons, List.map_append, List.drop_left' (by simp)]
  rw [hd, if_neg, if_pos (by simpa using h6)]
  · simp [Function.comp_def]
  · simp only [List.any_map, List.any_eq_true, Function.comp, decide_eq_true_eq, not_exists, not_and]
    intro c hc
    have := h4 c hc
    omega

theorem reach_ints (env : Env α) (l : List Nat) (acc : List Int) (G : Gmsh α) :
    Reach env (.elems1 acc) G (l.map fun b : Nat => Tok.int b) (.elems1 (acc ++ l.map fun b : Nat => (b : Int))) G := by
  induction l generalizing acc with
  | nil => simp [Reach, runs]
  | cons a l ih =>
    unfold Reach
    rw [List.map_cons, runs, if_neg (by simp)]
    simp only [step, Option.bind_some]
    rw [ih]
    simp

theorem reach_elem (env : Env α) (G : Gmsh α) {x : Nat × Elem × List Nat} (h1 : 1 ≤ x.1) (h2 : x.2.1.Proper)
    (h3 : 1 ≤ x.2.1.phys) (h4 : ∀ c ∈ x.2.1.nodes, 1 ≤ c) : Reach env .elems G (elemToks x) .elems (G.addElem x.2.1) := by
  have hp := proc_elem h1 h2 h3 h4
  unfold elemToks
  have r0 : Reach env .elems G [.int x.1] (.elems1 [(x.1 : Int)]) G := by simp [Reach, runs, step]
  have r1 := reach_ints env (elemInts x).tail [(x.1 : Int)] G
  have he : [(x.1 : Int)] ++ (elemInts x).tail.map (fun b : Nat => (b : Int)) = (elemInts x).map fun b : Nat => (b : Int) := rfl
  rw [he] at r1
  have r2 : Reach env (.elems1 ((elemInts x).map fun b : Nat => (b : Int))) G [.eol] .elems (G.addElem x.2.1) := by
    simp [Reach, runs, step, hp]
  exact (r0.append r1).append r2

theorem reach_elems (env : Env α) (l : List (Nat × Elem × List Nat)) (G : Gmsh α)
    (h : ∀ x ∈ l, 1 ≤ x.1 ∧ x.2.1.Proper ∧ 1 ≤ x.2.1.phys ∧ ∀ c ∈ x.2.1.nodes, 1 ≤ c) :
    Reach env .elems G (l.flatMap elemToks) .elems { G with elems := G.elems ++ l.map fun x => x.2.1 } := by
  induction l generalizing G with
  | nil => simp [Reach, runs]
  | cons x l ih =>
    obtain ⟨h1, h2, h3, h4⟩ := h x (by simp)
    rw [List.flatMap_cons]
    have := (reach_elem env G h1 h2 h3 h4).append (ih _ fun y hy => h y (by simp [hy]))
    simpa [Gmsh.addElem] using this

/-! ### The whole file -/

/-- The tokens of the file. -/
def docToks (d : Doc) : List Tok :=
  [.kw .begFormat, .eol] ++ [.format d.version, .eol] ++ [.kw .endFormat, .eol] ++
  [.kw .begNames, .eol] ++ [.int d.counts.1, .eol] ++ d.names.flatMap nameToks ++ [.kw .endNames, .eol] ++
  [.kw .begNodes, .eol] ++ [.int d.counts.2.1, .eol] ++ d.nodes.flatMap nodeToks ++ [.kw .endNodes, .eol] ++
  [.kw .begElems, .eol] ++ [.int d.counts.2.2, .eol] ++ d.elems.flatMap elemToks ++ [.kw .endElems, .eol]

theorem lexes_doc {d : Doc} (h : DocOK d) : LexA [] true (render d) (docToks d) [] true := by
  have hv : d.version.all isFmtC = true ∧ ∃ c ∈ d.version, c ≠ ' ' := by
    rcases h.version with e | e <;> rw [e] <;> exact ⟨by decide, '2', by decide, by decide⟩
  have n1 := LexA.flatMap (s := [.names]) (b := true) (f := nameLine) (g := nameToks) d.names
    fun x hx => lexes_nameLine (h.names x hx).2.2 rfl
  have n2 := LexA.flatMap (s := [.nodes]) (b := true) (f := nodeLine) (g := nodeToks) d.nodes
    fun x hx => lexes_nodeLine (h.nodes x hx).2.1 (h.nodes x hx).2.2.1 (h.nodes x hx).2.2.2 rfl
  have n3 := LexA.flatMap (s := [.elems]) (b := true) (f := elemLine) (g := elemToks) d.elems
    fun x _ => lexes_intLine x.1 (elemInts x).tail (Or.inr (Or.inr rfl))
  exact ((((((((((((((lexes_kw (s := []) .begFormat rfl).append (lexes_format (s := [.format]) hv.1 hv.2 rfl)).append
    (lexes_kw (s := [.format]) .endFormat rfl)).append (lexes_kw (s := []) .begNames rfl)).append
    (lexes_intLine (s := [.names]) d.counts.1 [] (Or.inl rfl))).append n1).append (lexes_kw (s := [.names]) .endNames rfl)).append
    (lexes_kw (s := []) .begNodes rfl)).append (lexes_intLine (s := [.nodes]) d.counts.2.1 [] (Or.inr (Or.inl rfl)))).append n2).append
    (lexes_kw (s := [.nodes]) .endNodes rfl)).append (lexes_kw (s := []) .begElems rfl)).append
    (lexes_intLine (s := [.elems]) d.counts.2.2 [] (Or.inr (Or.inr rfl)))).append n3).append (lexes_kw (s := [.elems]) .endElems rfl)

theorem reach_doc (env : Env α) {d : Doc} (h : DocOK d) : ∃ G st, Reach env .start ({} : Gmsh α) (docToks d) st G ∧ st.final = true ∧
    Read env d G ∧ Plain G ∧ Described G := by
  have r0 : Reach env .start ({} : Gmsh α) [.kw .begFormat, .eol] .fmt1 {} := rfl
  have ra : Reach env .fmt1 ({} : Gmsh α) [.format d.version, .eol] (.fmt3 d.version) {} := rfl
  have rb : Reach env (.fmt3 d.version) ({} : Gmsh α) [.kw .endFormat, .eol] .top {} := by
    have e : step env (.fmt4 d.version) .eol ({} : Gmsh α) = some (.top, {}) := by
      unfold step
      exact if_pos ⟨rfl, h.version⟩
    unfold Reach
    show (step env (.fmt4 d.version) .eol ({} : Gmsh α)).bind _ = _
    rw [e]
    rfl
  have rc : Reach env .top ({} : Gmsh α) [.kw .begNames, .eol] (.hdr1 .names) {} := rfl
  have rd : Reach env (.hdr1 .names) ({} : Gmsh α) [.int d.counts.1, .eol] .names {} := rfl
  obtain ⟨ph, r1, hp⟩ := reach_names env d.names ({} : Gmsh α) (fun x hx => ⟨(h.names x hx).1, (h.names x hx).2.1⟩) h.unique
    (by intro x _; rfl)
  have r2 : ∀ G : Gmsh α, Reach env .names G [.kw .endNames, .eol] .names G := fun _ => rfl
  have r2a : ∀ G : Gmsh α, Reach env .names G [.kw .begNodes, .eol] (.hdr1 .nodes) G := fun _ => rfl
  have r2b : ∀ G : Gmsh α, Reach env (.hdr1 .nodes) G [.int d.counts.2.1, .eol] .nodes G := fun _ => rfl
  obtain ⟨m, r3, _, hm⟩ := reach_nodes env d.nodes { ({} : Gmsh α) with phys := ph } fun x hx => (h.nodes x hx).1
  have r4 : ∀ G : Gmsh α, Reach env .nodes G [.kw .endNodes, .eol] .top G := fun _ => rfl
  have r4a : ∀ G : Gmsh α, Reach env .top G [.kw .begElems, .eol] (.hdr1 .elems) G := fun _ => rfl
  have r4b : ∀ G : Gmsh α, Reach env (.hdr1 .elems) G [.int d.counts.2.2, .eol] .elems G := fun _ => rfl
  have r5 := reach_elems env d.elems
    { { ({} : Gmsh α) with phys := ph } with coords := ([] : List (Nat × (α × α × α))) ++ d.nodes.map (nodeOf env), maxIdx := m } h.elems
  have r6 : ∀ G : Gmsh α, Reach env .elems G [.kw .endElems, .eol] .top G := fun _ => rfl
  have r := (((((((((((((r0.append ra).append rb).append rc).append rd).append r1).append (r2 _)).append (r2a _)).append
    (r2b _)).append r3).append (r4 _)).append (r4a _)).append (r4b _)).append r5).append (r6 _)
  refine ⟨_, _, r, rfl, ?_, ?_, ?_⟩
  · refine ⟨?_, ?_, ?_⟩
    · intro k i w
      show (ph k).get i = some w ↔ _
      rw [hp]
      simp [SMap.get]
    · rfl
    · rfl
  · exact ⟨rfl, rfl, rfl⟩
  · refine ⟨⟨rfl, rfl, rfl, ?_⟩, ?_, List.Pairwise.nil, List.Pairwise.nil, List.Pairwise.nil⟩
    · intro e he
      simp only [List.nil_append, List.mem_map] at he
      obtain ⟨x, hx, rfl⟩ := he
      exact (h.elems x hx).2.1
    · intro x hx
      simp only [List.nil_append, List.mem_map] at hx
      obtain ⟨y, hy, rfl⟩ := hx
      exact hm y hy

/-- **C71** A file of Gmsh is read: `create_gmsh_mesh` succeeds, the mesh is the one that the file describes, and the
scanner is ready for the next file. This is so whatever the counts say: they are not used. -/
theorem load_doc (env : Env α) {d : Doc} (h : DocOK d) : ∃ G, load env [] (render d) = (true, G, []) ∧ Read env d G ∧
    Plain G ∧ Described G := by
  obtain ⟨G, st, r, hst, h1, h2, h3⟩ := reach_doc env h
  refine ⟨G, ?_, h1, h2, h3⟩
  obtain ⟨a, b⟩ := lexes_doc h [] trivial
  rw [List.append_nil] at a b
  have hnil : lex [] true [] = ([], ([] : Stk)) := rfl
  rw [hnil, List.map_nil, List.append_nil] at a
  rw [hnil] at b
  have r' : runs env .start {} ((lex [] true (render d)).1.map Prod.fst) = some (st, G) := a ▸ r
  have p := parse_runs env (lex [] true (render d)).2 .start {} _ r'
  rw [hst, b] at p
  unfold load
  dsimp only
  rw [b]
  exact p

end Verif.Gmsh.File
