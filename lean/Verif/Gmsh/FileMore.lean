import Verif.Gmsh.FileTop
import Verif.Gmsh.Top

/-!
# C71: files that are cut short, and what they do to later files
-/

namespace Verif.Gmsh.File
open Verif.MeshIO (Text SMap isWs Next showNat intVal isFloat isInt isBlank isHeadC isWordC dropSign)

variable {α : Type}

/-! ### Any file -/

/-- Specification: what holds of a mesh that was read, wherever the reading stopped. -/
structure Sane (G : Gmsh α) : Prop where
  plain : Plain G
  described : Described G
  nodes : ∀ x ∈ G.coords, 1 ≤ x.1
  elems : ∀ e ∈ G.elems, 1 ≤ e.phys ∧ ∀ c ∈ e.nodes, 1 ≤ c
  names : ∀ k i w, (G.phys k).get i = some w → k ≤ 3 ∧ 1 ≤ i

theorem sane_empty : Sane ({} : Gmsh α) := by
  refine ⟨⟨rfl, rfl, rfl⟩, ⟨⟨rfl, rfl, rfl, by simp⟩, by intro x hx; simp at hx, List.Pairwise.nil, List.Pairwise.nil,
    List.Pairwise.nil⟩, by simp, by simp, ?_⟩
  intro k i w h
  simp [SMap.get] at h

theorem elemType_le {n : Int} {ty : Nat} (h : elemType n = some ty) : ty ≤ 3 := by
  unfold elemType at h
  split_ifs at h <;> simp at h <;> omega

theorem procElem_sane {l : List Int} {e : Elem} (h : procElem l = some e) :
    e.Proper ∧ 1 ≤ e.phys ∧ ∀ c ∈ e.nodes, 1 ≤ c := by
  unfold procElem at h
  split at h
  · rename_i idx num tags rest
    split at h
    · simp at h
    · split at h
      · simp at h
      · rename_i ty hty
        have := elemType_le hty
        split at h
        · simp at h
        · split at h
          · simp at h
          · split at h
            · simp at h
            · rename_i hph
              dsimp only at h
              split at h
              · simp at h
              · rename_i hany
                split at h
                · rename_i hlen
                  simp only [Option.some.injEq] at h
                  subst h
                  refine ⟨⟨this, by simpa using hlen⟩, ?_, ?_⟩
                  · show 1 ≤ (rest.headD 0).toNat
                    omega
                  · intro c hc
                    simp only [List.mem_map] at hc
                    obtain ⟨a, ha, rfl⟩ := hc
                    simp only [List.any_eq_true, decide_eq_true_eq, not_exists, not_and] at hany
                    have := hany a ha
                    omega
                · simp at h
  · simp at h

theorem sane_addPhys {G : Gmsh α} (h : Sane G) {k i : Nat} (hk : k ≤ 3) (hi : 1 ≤ i) (w : Text) : Sane (G.addPhys k i w) := by
  obtain ⟨⟨a1, a2, a3⟩, ⟨⟨b1, b2, b3, b4⟩, b5, b6, b7, b8⟩, c, d, e⟩ := h
  refine ⟨⟨a1, a2, a3⟩, ⟨⟨b1, b2, b3, b4⟩, b5, b6, b7, b8⟩, c, d, ?_⟩
  intro k' i' w' h
  simp only [Gmsh.addPhys] at h
  split at h
  · rename_i hkk
    rw [SMap.get_put] at h
    split at h
    · rename_i hii
      rw [hkk, hii]; exact ⟨hk, hi⟩
    · exact e k' i' w' h
  · exact e k' i' w' h

theorem sane_addCoord {G : Gmsh α} (h : Sane G) {i : Nat} (hi : 1 ≤ i) (x : α × α × α) : Sane (G.addCoord i x) := by
  obtain ⟨⟨a1, a2, a3⟩, ⟨⟨b1, b2, b3, b4⟩, b5, b6, b7, b8⟩, c, d, e⟩ := h
  refine ⟨⟨a1, a2, a3⟩, ⟨⟨b1, b2, b3, b4⟩, ?_, b6, b7, b8⟩, ?_, d, e⟩
  · intro y hy
    simp only [Gmsh.addCoord, List.mem_append, List.mem_singleton] at hy ⊢
    rcases hy with hy | rfl
    · have := b5 y hy
      split_ifs <;> omega
    · split_ifs <;> simp only <;> omega
  · intro y hy
    simp only [Gmsh.addCoord, List.mem_append, List.mem_singleton] at hy
    rcases hy with hy | rfl
    · exact c y hy
    · exact hi

theorem sane_addElem {G : Gmsh α} (h : Sane G) {e : Elem} (he : e.Proper ∧ 1 ≤ e.phys ∧ ∀ c ∈ e.nodes, 1 ≤ c) :
    Sane (G.addElem e) := by
  obtain ⟨⟨a1, a2, a3⟩, ⟨⟨b1, b2, b3, b4⟩, b5, b6, b7, b8⟩, c, d, n⟩ := h
  refine ⟨⟨a1, a2, a3⟩, ⟨⟨b1, b2, b3, ?_⟩, b5, b6, b7, b8⟩, c, ?_, n⟩
  · intro y hy
    simp only [Gmsh.addElem, List.mem_append, List.mem_singleton] at hy
    rcases hy with hy | rfl
    · exact b4 y hy
    · exact he.1
  · intro y hy
    simp only [Gmsh.addElem, List.mem_append, List.mem_singleton] at hy
    rcases hy with hy | rfl
    · exact d y hy
    · exact he.2

theorem sane_step {env : MeshIO.Env α} {st st' : St α} {t : Tok} {G G' : Gmsh α} (h : Sane G)
    (hs : step env st t G = some (st', G')) : Sane G' := by
  have same : G' = G → Sane G' := fun e => e ▸ h
  cases st with
  | names3 d i w =>
    simp only [step] at hs
    split_ifs at hs with h1 h2 h3 h4
    simp only [Option.some.injEq, Prod.mk.injEq] at hs
    rw [← hs.2]
    exact sane_addPhys h (by omega) (by omega) w
  | nodes4 i x y z =>
    simp only [step] at hs
    split_ifs at hs with h1 h2
    simp only [Option.some.injEq, Prod.mk.injEq] at hs
    rw [← hs.2]
    exact sane_addCoord h (by omega) _
  | elems1 l =>
    simp only [step] at hs
    split at hs
    · simp only [Option.some.injEq, Prod.mk.injEq] at hs
      exact same hs.2.symm
    · cases hp : procElem l with
      | none => rw [hp] at hs; simp at hs
      | some e =>
        rw [hp] at hs
        simp only [Option.map_some, Option.some.injEq, Prod.mk.injEq] at hs
        rw [← hs.2]
        exact sane_addElem h (procElem_sane hp)
    · simp at hs
  | _ =>
    apply same
    simp only [step] at hs
    first
      | (split_ifs at hs <;> simp only [Option.some.injEq, Prod.mk.injEq] at hs <;> exact hs.2.symm)
      | (split at hs <;> first
          | (simp only [Option.some.injEq, Prod.mk.injEq] at hs; exact hs.2.symm)
          | (simp only [Option.map_eq_some_iff, Prod.mk.injEq] at hs; obtain ⟨_, _, _, e⟩ := hs; exact e.symm)
          | simp at hs)
      | (simp only [Option.map_eq_some_iff, Prod.mk.injEq] at hs; obtain ⟨_, _, _, e⟩ := hs; exact e.symm)

theorem sane_parse {env : MeshIO.Env α} {e : Stk} (ts : List (Tok × Stk)) {st : St α} {G : Gmsh α} (h : Sane G) :
    Sane (parse env e st G ts).2.1 := by
  induction ts generalizing st G with
  | nil => exact h
  | cons t ts ih =>
    obtain ⟨t, s⟩ := t
    rw [parse]
    split
    · exact h
    · split
      · exact h
      · rename_i hs
        exact ih (sane_step h hs)

/-- **C71** Whatever the file is and whether or not it is accepted, the mesh that is left is one that `finalize_mesh` and
`create_device` can deal with: the indices of nodes and of physical groups are positive, elements have as many nodes as
their type says, and nothing is finalized. -/
theorem load_sane (env : MeshIO.Env α) (s : Stk) (text : Text) : Sane (load env s text).2.1 := sane_parse _ sane_empty

/-! ### Files that end early -/

/-- The part of the file up to some line of its nodes. -/
def renderTo (d : Doc) (k : Nat) : Text :=
  "$MeshFormat".toList ++ ['\n'] ++ (d.version ++ ['\n']) ++ ("$EndMeshFormat".toList ++ ['\n']) ++
  ("$PhysicalNames".toList ++ ['\n']) ++ intLine [d.counts.1] ++ d.names.flatMap nameLine ++ ("$EndPhysicalNames".toList ++ ['\n']) ++
  ("$Nodes".toList ++ ['\n']) ++ intLine [d.counts.2.1] ++ (d.nodes.take k).flatMap nodeLine

/-- It is the beginning of the file. -/
theorem renderTo_prefix (d : Doc) (k : Nat) : ∃ rest, render d = renderTo d k ++ rest := by
  refine ⟨(d.nodes.drop k).flatMap nodeLine ++ (("$EndNodes".toList ++ ['\n']) ++
    (("$Elements".toList ++ ['\n']) ++ (intLine [d.counts.2.2] ++ (d.elems.flatMap elemLine ++ ("$EndElements".toList ++ ['\n']))))), ?_⟩
  have : d.nodes.flatMap nodeLine = (d.nodes.take k).flatMap nodeLine ++ (d.nodes.drop k).flatMap nodeLine := by
    rw [← List.flatMap_append, List.take_append_drop]
  unfold render renderTo
  rw [this]
  generalize (d.nodes.take k).flatMap nodeLine = A
  generalize (d.nodes.drop k).flatMap nodeLine = B
  generalize intLine [d.counts.1] = C
  generalize intLine [d.counts.2.1] = D
  generalize intLine [d.counts.2.2] = E
  generalize "$MeshFormat".toList = a1
  generalize "$EndMeshFormat".toList = a2
  generalize "$PhysicalNames".toList = a3
  generalize "$EndPhysicalNames".toList = a4
  generalize "$Nodes".toList = a5
  generalize "$EndNodes".toList = a6
  generalize "$Elements".toList = a7
  generalize "$EndElements".toList = a8
  simp only [List.append_assoc]

/-- A character outside ASCII. -/
theorem rule_high {sec : Sec} {c : Char} {cs : Text} {b : Bool} (hc : 128 ≤ c.val) (hs : sec ≠ .names) :
    rule sec b (c :: cs) = if cs = [] then some (some .eof) else none := by
  have hd : c.isDigit = false := by
    simp only [Char.isDigit, Bool.and_eq_false_iff, decide_eq_false_iff_not]
    right
    intro h
    have : c.val ≤ 57 := h
    have h1 := UInt32.le_iff_toNat_le.1 hc
    have h2 := UInt32.le_iff_toNat_le.1 this
    simp at h1 h2
    omega
  have ne : ∀ q : Char, q.val < 128 → c ≠ q := by
    rintro q hq rfl
    exact absurd hq (by simpa using hc)
  have hn := ne '\n' (by decide)
  have hblank : isBlank c = false := by
    have h1 := ne ' ' (by decide)
    have h2 := ne '\t' (by decide)
    have h3 := ne '\r' (by decide)
    simp [isBlank, h1, h2, h3]
  have hsign : dropSign (c :: cs) = c :: cs := by
    have h1 := ne '+' (by decide)
    have h2 := ne '-' (by decide)
    unfold dropSign
    split
    · rename_i h; simp only [List.cons.injEq] at h; exact absurd h.1 h1
    · rename_i h; simp only [List.cons.injEq] at h; exact absurd h.1 h2
    · rfl
  have hnc : Verif.Sym.isNumC c = false := by
    have h1 := ne '+' (by decide)
    have h2 := ne '-' (by decide)
    have h3 := ne '.' (by decide)
    have h4 := ne 'e' (by decide)
    have h5 := ne 'E' (by decide)
    simp [Verif.Sym.isNumC, hd, h1, h2, h3, h4, h5]
  have hnum : Verif.Sym.isNumber (c :: cs) = false := Verif.Sym.isNumber_of_mem (q := c) hnc (by simp)
  simp only [Verif.Sym.isNumber, Bool.or_eq_false_iff] at hnum
  have hF : isFloat (c :: cs) = false := by
    unfold isFloat
    rw [hsign, hnum.1.1.1, hnum.1.1.2, hnum.1.2]
    rfl
  have hI : isInt (c :: cs) = false := by
    unfold isInt
    split
    · rename_i h; simp only [List.cons.injEq] at h; exact absurd h.1 (ne '-' (by decide))
    · exact hnum.2
  have hK : (if b then Kw.all.find? (fun k => k.text = c :: cs && k.sec = sec) else none) = none := by
    split
    · rw [List.find?_eq_none]
      intro k _ h
      simp only [Bool.and_eq_true, decide_eq_true_eq] at h
      obtain ⟨x, hx⟩ := kw_first k
      rw [hx] at h
      simp only [List.cons.injEq] at h
      exact ne '$' (by decide) h.1.1.symm
    · rfl
  have hfm : isFmtC c = false := by
    simp [isFmtC, hd, ne '.' (by decide), ne ' ' (by decide)]
  unfold rule
  dsimp only
  rw [if_neg hn, if_neg (by rw [List.all_cons, hblank]; simp), hF, hI, hK]
  simp only [Bool.false_eq_true, and_false, if_false, hs, false_and]
  rw [if_neg (by rw [List.all_cons, hfm]; simp)]
  split_ifs <;> simp_all

/-- Such a character ends the file, whatever comes after it. -/
theorem lex_high {s : Stk} {b : Bool} {c : Char} (hc : 128 ≤ c.val) (hs : s.cur ≠ .names) (rest : Text) :
    ∃ ts e, lex s b (c :: rest) = ((.eof, s) :: ts, e) := by
  have := lex_step (s := s) (bol := b) (x := [c]) (rest := rest) (a := some .eof) (by simp)
    (by rw [rule_high hc hs]; rfl) (by
      intro q t u _
      rw [List.cons_append, rule_high hc hs]
      simp)
  rw [List.cons_append, List.nil_append] at this
  rw [this]
  exact ⟨_, _, rfl⟩

/-- The stack of start states that goes with a token is the one that the tokens up to it lead to. -/
theorem lexF_stk (n : Nat) (s : Stk) (b : Bool) (cs : Text) {A B : List (Tok × Stk)} {t : Tok} {s' : Stk}
    (h : (lexF n s b cs).1 = A ++ (t, s') :: B) : s' = t.run ((A.map Prod.fst).foldl (fun x t => t.run x) s) := by
  induction n generalizing s b cs A with
  | zero => simp [lexF] at h
  | succ n ih =>
    cases cs with
    | nil => simp [lexF] at h
    | cons c cs =>
      rw [lexF] at h
      split at h
      · simp at h
      · exact ih _ _ _ h
      · rename_i k t' _
        dsimp only at h
        cases A with
        | nil =>
          simp only [List.nil_append, List.cons.injEq, Prod.mk.injEq] at h
          obtain ⟨⟨rfl, rfl⟩, _⟩ := h
          rfl
        | cons a A =>
          simp only [List.cons_append, List.cons.injEq] at h
          obtain ⟨rfl, h⟩ := h
          simpa using ih _ _ _ h

theorem parse_runs_eof (env : MeshIO.Env α) (e : Stk) (st : St α) (G : Gmsh α) (ts : List (Tok × Stk)) (s : Stk)
    (us : List (Tok × Stk)) {st' : St α} {G' : Gmsh α}
    (h : runs env st G (ts.map Prod.fst) = some (st', G')) : parse env e st G (ts ++ (.eof, s) :: us) = (st'.final, G', s) := by
  induction ts generalizing st G with
  | nil =>
    simp only [List.map_nil, runs, Option.some.injEq, Prod.mk.injEq] at h
    rw [List.nil_append, parse, h.1, h.2, if_pos rfl]
  | cons t ts ih =>
    obtain ⟨t, s⟩ := t
    rw [List.map_cons, runs] at h
    split at h
    · simp at h
    · rename_i hne
      rw [List.cons_append, parse, if_neg hne]
      cases hs : step env st t G with
      | none => rw [hs] at h; simp at h
      | some r =>
        rw [hs] at h
        exact ih _ _ h

/-- What ends a file: its end, or a character outside ASCII with anything after it. -/
def Ends (tail : Text) : Prop := tail = [] ∨ ∃ c rest, tail = c :: rest ∧ 128 ≤ c.val

/-- A piece of text that is read to a state where the file may end. -/
theorem load_ends (env : MeshIO.Env α) {s : Stk} {x : Text} {ts : List Tok} {st : St α} {G : Gmsh α} {s' : Stk}
    (hl : LexA s true x ts s' true) (hr : Reach env .start {} ts st G) (hst : st.final = true)
    (hs : s' = ts.foldl (fun x t => t.run x) s) (hn : s'.cur ≠ .names) {tail : Text} (ht : Ends tail) :
    load env s (x ++ tail) = (true, G, s') := by
  obtain ⟨a, b⟩ := hl tail trivial
  rcases ht with rfl | ⟨c, rest, rfl, hc⟩
  · have hnil : lex s' true [] = ([], s') := rfl
    rw [List.append_nil] at a b
    rw [hnil, List.map_nil, List.append_nil] at a
    rw [hnil] at b
    have r' : runs env .start {} ((lex s true x).1.map Prod.fst) = some (st, G) := a ▸ hr
    have p := parse_runs env (lex s true x).2 .start {} _ r'
    rw [hst, b] at p
    unfold load
    dsimp only
    rw [List.append_nil, b]
    exact p
  · obtain ⟨us, e, hh⟩ := lex_high (b := true) hc hn rest
    rw [hh] at a
    obtain ⟨A, B, e1, e2, e3⟩ := List.map_eq_append_iff.1 a
    cases B with
    | nil => simp at e3
    | cons y B =>
      obtain ⟨t, s1⟩ := y
      simp only [List.map_cons, List.cons.injEq] at e3
      obtain ⟨rfl, e3⟩ := e3
      have hs1 := lexF_stk _ _ _ _ e1
      rw [e2, ← hs] at hs1
      have r' : runs env .start {} (A.map Prod.fst) = some (st, G) := e2 ▸ hr
      have p := parse_runs_eof env (lex s true (x ++ c :: rest)).2 .start {} A s1 B r'
      rw [← e1, hst, hs1] at p
      exact p

/-! ### Whole histories -/

/-- Files that are read one after the other: the verdicts. -/
def session (env : MeshIO.Env α) : Stk → List Text → List Bool
  | _, [] => []
  | s, x :: xs => (load env s x).1 :: session env (load env s x).2.2 xs

/-- The scanner is inside of a section that an earlier file did not end. -/
theorem load_poison (env : MeshIO.Env α) {s : Stk} (hs : s.cur ≠ .initial) (rest : Text) :
    load env s ("$MeshFormat".toList ++ rest) = (false, {}, s) := by
  have hr : ∀ x : Text, rule s.cur true ('$' :: 'M' :: x) = none := by
    intro x
    rw [dollar_rule]
    have : (if true = true then Kw.all.find? (fun k => k.text = '$' :: 'M' :: x && k.sec = s.cur) else none) = none := by
      rw [if_pos rfl, List.find?_eq_none]
      intro k _ h
      simp only [Bool.and_eq_true, decide_eq_true_eq] at h
      cases k with
      | begFormat => exact hs h.2.symm
      | begNames => exact hs h.2.symm
      | begNodes => exact hs h.2.symm
      | begElems => exact hs h.2.symm
      | endFormat => exact absurd (List.cons.inj (List.cons.inj h.1).2).1 (by decide)
      | endNames => exact absurd (List.cons.inj (List.cons.inj h.1).2).1 (by decide)
      | endNodes => exact absurd (List.cons.inj (List.cons.inj h.1).2).1 (by decide)
      | endElems => exact absurd (List.cons.inj (List.cons.inj h.1).2).1 (by decide)
    rw [this]
    simp
  have h1 : rule s.cur true ['$'] = some (some (.ch '$')) := by
    rw [dollar_rule]
    have : (if true = true then Kw.all.find? (fun k => k.text = ['$'] && k.sec = s.cur) else none) = none := by
      rw [if_pos rfl, List.find?_eq_none]
      intro k _ h
      simp only [Bool.and_eq_true, decide_eq_true_eq] at h
      cases k <;> exact absurd (congrArg List.length h.1) (by decide)
    rw [this]
    simp
  have e : "$MeshFormat".toList ++ rest = ['$'] ++ ('M' :: ("eshFormat".toList ++ rest)) := rfl
  have hl := lex_step (s := s) (bol := true) (x := ['$']) (rest := 'M' :: ("eshFormat".toList ++ rest)) (by simp) h1 (by
    intro c t u ht
    cases t with
    | nil =>
      simp only [List.nil_append, List.cons.injEq] at ht
      rw [← ht.1]; exact hr []
    | cons a t =>
      simp only [List.cons_append, List.cons.injEq] at ht
      rw [← ht.1]; exact hr (t ++ [c]))
  rw [← e] at hl
  unfold load
  dsimp only
  rw [hl]
  simp only [emit]
  rw [parse, if_neg (by simp)]
  rfl

/-- **C71** The defect: once a file has left the scanner inside of a section, no file of Gmsh is read any more, in any
history of later calls. -/
theorem session_poison (env : MeshIO.Env α) {s : Stk} (hs : s.cur ≠ .initial) (ds : List Doc) :
    ∀ v ∈ session env s (ds.map render), v = false := by
  induction ds with
  | nil => simp [session]
  | cons d ds ih =>
    have hp : ∃ rest, render d = "$MeshFormat".toList ++ rest := by
      unfold render
      simp only [List.append_assoc]
      exact ⟨_, rfl⟩
    obtain ⟨rest, e⟩ := hp
    rw [List.map_cons, session, e, load_poison env hs]
    intro v hv
    rcases List.mem_cons.1 hv with rfl | hv
    · rfl
    · exact ih v hv

/-- **C71** Files of Gmsh, one after the other, are all read. -/
theorem session_ok (env : MeshIO.Env α) {ds : List Doc} (h : ∀ d ∈ ds, DocOK d) :
    ∀ v ∈ session env [] (ds.map render), v = true := by
  induction ds with
  | nil => simp [session]
  | cons d ds ih =>
    obtain ⟨G, hG, _⟩ := load_doc env (h d (by simp))
    rw [List.map_cons, session, hG]
    intro v hv
    rcases List.mem_cons.1 hv with rfl | hv
    · rfl
    · exact ih (fun x hx => h x (by simp [hx])) v hv

/-! ### A file cut short -/

/-- The tokens of the beginning of a file. -/
def toksTo (d : Doc) (k : Nat) : List Tok :=
  [.kw .begFormat, .eol] ++ [.format d.version, .eol] ++ [.kw .endFormat, .eol] ++
  [.kw .begNames, .eol] ++ [.int d.counts.1, .eol] ++ d.names.flatMap nameToks ++ [.kw .endNames, .eol] ++
  [.kw .begNodes, .eol] ++ [.int d.counts.2.1, .eol] ++ (d.nodes.take k).flatMap nodeToks

theorem lexes_to {d : Doc} (h : DocOK d) (k : Nat) : LexA [] true (renderTo d k) (toksTo d k) [.nodes] true := by
  have hv : d.version.all isFmtC = true ∧ ∃ c ∈ d.version, c ≠ ' ' := by
    rcases h.version with e | e <;> rw [e] <;> exact ⟨by decide, '2', by decide, by decide⟩
  have n1 := LexA.flatMap (s := [.names]) (b := true) (f := nameLine) (g := nameToks) d.names
    fun x hx => lexes_nameLine (h.names x hx).2.2 rfl
  have n2 := LexA.flatMap (s := [.nodes]) (b := true) (f := nodeLine) (g := nodeToks) (d.nodes.take k)
    fun x hx => by
      have hx := List.mem_of_mem_take hx
      exact lexes_nodeLine (h.nodes x hx).2.1 (h.nodes x hx).2.2.1 (h.nodes x hx).2.2.2 rfl
  exact (((((((((lexes_kw (s := []) .begFormat rfl).append (lexes_format (s := [.format]) hv.1 hv.2 rfl)).append
    (lexes_kw (s := [.format]) .endFormat rfl)).append (lexes_kw (s := []) .begNames rfl)).append
    (lexes_intLine (s := [.names]) d.counts.1 [] (Or.inl rfl))).append n1).append (lexes_kw (s := [.names]) .endNames rfl)).append
    (lexes_kw (s := []) .begNodes rfl)).append (lexes_intLine (s := [.nodes]) d.counts.2.1 [] (Or.inr (Or.inl rfl)))).append n2

theorem reach_to (env : MeshIO.Env α) {d : Doc} (h : DocOK d) (k : Nat) : ∃ G, Reach env .start ({} : Gmsh α) (toksTo d k) .nodes G ∧
    Read env { d with nodes := d.nodes.take k, elems := [] } G := by
  have r0 : Reach env .start ({} : Gmsh α) [.kw .begFormat, .eol] .fmt1 {} := rfl
  have ra : Reach env .fmt1 ({} : Gmsh α) [.format d.version, .eol] (.fmt3 d.version) {} := rfl
  have rb : Reach env (.fmt3 d.version) ({} : Gmsh α) [.kw .endFormat, .eol] .top {} := by
    have e : step env (.fmt4 d.version) .eol ({} : Gmsh α) = some (.top, {}) := by
      unfold step
      exact if_pos ⟨rfl, h.version⟩
    unfold Reach
    show (step env (.fmt4 d.version) .eol ({} : Gmsh α)).bind _ = _
    rw [e]
    rfl
  have rc : Reach env .top ({} : Gmsh α) [.kw .begNames, .eol] (.hdr1 .names) {} := rfl
  have rd : Reach env (.hdr1 .names) ({} : Gmsh α) [.int d.counts.1, .eol] .names {} := rfl
  obtain ⟨ph, r1, hp⟩ := reach_names env d.names ({} : Gmsh α) (fun x hx => ⟨(h.names x hx).1, (h.names x hx).2.1⟩) h.unique
    (by intro x _; rfl)
  have r2 : ∀ G : Gmsh α, Reach env .names G [.kw .endNames, .eol] .names G := fun _ => rfl
  have r2a : ∀ G : Gmsh α, Reach env .names G [.kw .begNodes, .eol] (.hdr1 .nodes) G := fun _ => rfl
  have r2b : ∀ G : Gmsh α, Reach env (.hdr1 .nodes) G [.int d.counts.2.1, .eol] .nodes G := fun _ => rfl
  obtain ⟨m, r3, _, hm⟩ := reach_nodes env (d.nodes.take k) { ({} : Gmsh α) with phys := ph }
    fun x hx => (h.nodes x (List.mem_of_mem_take hx)).1
  have r := ((((((((r0.append ra).append rb).append rc).append rd).append r1).append (r2 _)).append (r2a _)).append
    (r2b _)).append r3
  refine ⟨_, r, ?_, rfl, rfl⟩
  intro k i w
  show (ph k).get i = some w ↔ _
  rw [hp]
  simp [SMap.get]

theorem stk_id (l : List Tok) (h : ∀ t ∈ l, ∀ x, t.run x = x) (s : Stk) : l.foldl (fun x t => t.run x) s = s := by
  induction l with
  | nil => rfl
  | cons a l ih =>
    rw [List.foldl_cons, h a (by simp)]
    exact ih fun t ht => h t (by simp [ht])

theorem stk_names (l : List (Nat × Nat × Text)) (s : Stk) : (l.flatMap nameToks).foldl (fun x t => t.run x) s = s := by
  refine stk_id _ ?_ s
  intro t ht x
  obtain ⟨y, _, hy⟩ := List.mem_flatMap.1 ht
  simp only [nameToks, List.mem_cons, List.not_mem_nil, or_false] at hy
  rcases hy with rfl | rfl | rfl | rfl <;> rfl

theorem stk_nodes (l : List (Nat × Text × Text × Text)) (s : Stk) : (l.flatMap nodeToks).foldl (fun x t => t.run x) s = s := by
  refine stk_id _ ?_ s
  intro t ht x
  obtain ⟨y, _, hy⟩ := List.mem_flatMap.1 ht
  have hnum : ∀ z : Text, (numTok z).run x = x := by intro z; unfold numTok; split <;> rfl
  simp only [nodeToks, List.mem_cons, List.not_mem_nil, or_false] at hy
  rcases hy with rfl | rfl | rfl | rfl | rfl
  · rfl
  · exact hnum _
  · exact hnum _
  · exact hnum _
  · rfl

/-- **C71** The defect: a file that was cut short after some line of its nodes (or in which a character outside ASCII
follows that line) is accepted without its elements; and the scanner stays in the middle of the file. -/
theorem load_cut (env : MeshIO.Env α) {d : Doc} (h : DocOK d) (k : Nat) {tail : Text} (ht : Ends tail) :
    ∃ G, load env [] (renderTo d k ++ tail) = (true, G, [.nodes]) ∧
      Read env { d with nodes := d.nodes.take k, elems := [] } G := by
  obtain ⟨G, r, hG⟩ := reach_to env h k
  refine ⟨G, load_ends env (lexes_to h k) r rfl ?_ (by decide) ht, hG⟩
  unfold toksTo
  simp only [List.foldl_append]
  rw [stk_nodes, stk_names]
  rfl

/-- **C71** The defect: after such a file no file is read. -/
theorem cut_poison (env : MeshIO.Env α) {d : Doc} (h : DocOK d) (k : Nat) (ds : List Doc) :
    ∃ vs, session env [] (renderTo d k :: ds.map render) = true :: vs ∧ vs.length = ds.length ∧ ∀ v ∈ vs, v = false := by
  obtain ⟨G, hG, _⟩ := load_cut env h k (tail := []) (Or.inl rfl)
  rw [List.append_nil] at hG
  have hlen : ∀ (s : Stk) (l : List Text), (session env s l).length = l.length := by
    intro s l
    induction l generalizing s with
    | nil => rfl
    | cons a l ih => simp [session, ih]
  refine ⟨_, by rw [session, hG], by rw [hlen, List.length_map], ?_⟩
  exact session_poison env (s := [.nodes]) (by decide) ds

/-- **C71** The defect: text behind the file is read by nobody, from a character outside ASCII on; an empty file is a
mesh. -/
theorem load_tail (env : MeshIO.Env α) {tail : Text} (ht : Ends tail) : load env [] tail = (true, ({} : Gmsh α), []) := by
  have := load_ends env (s := []) (x := []) (ts := []) (st := .start) (G := {}) (s' := []) (LexA.nil _ _) rfl rfl rfl
    (by decide) ht
  simpa using this

/-! ### From a file to a device -/

theorem read_same {env : MeshIO.Env α} {d : Doc} {G G' : Gmsh α} (h : Read env d G) (hs : SameMesh G G') : Read env d G' := by
  obtain ⟨a1, a2, a3, _⟩ := hs
  exact ⟨by rw [a1]; exact h.names, by rw [a2]; exact h.coords, by rw [a3]; exact h.elems⟩

/-- **C71** From a file to a device: a file of Gmsh is read, the commands that describe the mesh succeed, `finalize_mesh`
succeeds if and only if elements with the same name have the same type, then `create_device` succeeds if and only if the
name is free and every region, contact and interface can be made, and the device is the one that was described. -/
theorem create_from_file (env : MeshIO.Env α) {d : Doc} (h : DocOK d) {cs : List Cmd} (hc : ∀ c ∈ cs, c.Full) :
    ∃ G0, load env [] (render d) = (true, G0, []) ∧ ∃ G, run G0 cs = some G ∧ Read env d G ∧ Says cs G ∧
      (G.finalize.1 = true ↔ ∀ p e e', Group G p e → Group G p e' → e.ty = e'.ty) ∧
      (G.finalize.1 = true → ∀ (env' : MeshIO.Env α) (name : Text) (devs : MeshIO.Devs α),
        ((instantiate env' G.finalize.2 name devs).1 = .ok ↔ devs.has name = false ∧
          (∀ n ri, G.regions.get n = some ri → RegionGood env' G G.finalize.2.dim ri) ∧
          (∀ n ci, G.contacts.get n = some ci → ContactGood G G.finalize.2.dim ci) ∧
          (∀ n ii, G.ifaces.get n = some ii → IfaceGood G G.finalize.2.dim ii)) ∧
        ((∀ x ∈ d.elems, x.2.1.nodes.Nodup) → (instantiate env' G.finalize.2 name devs).1 = .ok →
          (∃ v, (instantiate env' G.finalize.2 name devs).2.get name = some v ∧ DevOK G G.finalize.2.dim v) ∧
          ∀ n, n ≠ name → (instantiate env' G.finalize.2 name devs).2.get n = devs.get n)) := by
  obtain ⟨G0, h1, h2, h3, h4⟩ := load_doc env h
  refine ⟨G0, h1, ?_⟩
  obtain ⟨h5, h6⟩ := commands_ok h3 h4 cs
  obtain ⟨G, hG⟩ := Option.isSome_iff_exists.1 (h5.2 hc)
  obtain ⟨h7, h8, h9⟩ := h6 G hG
  have hL := read_same h2 h9
  refine ⟨G, hG, hL, h7, finalize_iff h8.fresh, ?_⟩
  intro hfin env' name devs
  have hF : Final G G.finalize.2 := ⟨h8.fresh, Prod.ext hfin rfl⟩
  constructor
  · exact create_ok_iff hF h8 env' name devs
  · intro hd
    refine create_ok hF h8 ?_ env' name devs
    intro e he
    rw [hL.elems, List.mem_map] at he
    obtain ⟨x, hx, rfl⟩ := he
    exact hd x hx

end Verif.Gmsh.File
