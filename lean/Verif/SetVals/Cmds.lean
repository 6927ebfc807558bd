import Verif.SetVals.History

/-!
# C88, C89 for the commands with their keywords, and where the program does something else than asked
-/

namespace Verif.SetVals

open Verif.Deps (Kind Dfn Src Denotes Ref)
open Verif.PyArg (F64 Py Lib Opt Means)

/-- the text an option stands for: the one given, or the default -/
def Text (L : Lib) (opts : List Opt) (kw : List (String × Py)) (n s : String) : Prop := ∃ v, Means opts kw n v ∧ PyArg.getString L v = s

/-- the models a command is about -/
inductive About : On → Nat → Kind → Prop
  | nodes (dim) : About .nodes dim .node
  | edges (dim) : About .edges dim .edge
  | triangles : About .elements 2 .tri
  | tetrahedra : About .elements 3 .tet

/-- a region of the program -/
def find (W : World) (d r : String) : Option Reg := (W d).bind fun dev => dev.region r

/-- the program after a call that is about one region: nothing else is different -/
structure OnlyRegion (W W' : World) (d r : String) (reg : Reg) : Prop where
  there : find W' d r = some reg
  others : ∀ d' r', ¬ (d' = d ∧ r' = r) → find W' d' r' = find W d' r'
  dims : ∀ d', (W' d').map (·.dim) = (W d').map (·.dim)

theorem put_only {W : World} {d r : String} {dev : Dev} (hd : W d = some dev) (reg : Reg) : OnlyRegion W (put W d r reg) d r reg := by
  refine ⟨?_, ?_, ?_⟩
  · simp [find, put, hd]
  · intro d' r' h
    unfold find put
    by_cases hdd : d' = d
    · subst hdd
      have hr : r' ≠ r := fun hr => h ⟨rfl, hr⟩
      simp [hd, hr]
    · rw [if_neg hdd]
  · intro d'
    unfold put
    by_cases hdd : d' = d
    · subst hdd; simp [hd]
    · rw [if_neg hdd]

/-- What a command with the given options does: bad options, an unknown region, an element command where there are no elements, or the call
`c` (made from the kind and the texts and values of the options) on the region. -/
def Does (L : Lib) (F : Nat) (on : On) (W : World) (opts : List Opt) (kw : List (String × Py)) (c : Kind → Call → Prop)
    (res : World × Res) : Prop :=
  (¬ PyArg.Good L opts kw ∧ ∃ e, res = (W, .badArgs e)) ∨
  (PyArg.Good L opts kw ∧ ∃ d r, Text L opts kw "device" d ∧ Text L opts kw "region" r ∧
    ((find W d r = none ∧ res = (W, .err ("on Region \"" ++ r ++ "\" on Device \"" ++ d ++ "\" does not exist.\n"))) ∨
     (∃ dev reg, W d = some dev ∧ dev.region r = some reg ∧ (∀ k, ¬ About on dev.dim k) ∧ ∃ m, res = (W, .err m)) ∨
     (∃ dev reg k call, W d = some dev ∧ dev.region r = some reg ∧ About on dev.dim k ∧ c k call ∧ res.2 = (step F reg call).2 ∧
        OnlyRegion W res.1 d r (step F reg call).1)))

theorem text_of {L : Lib} {opts : List Opt} {kw sel : List (String × Py)} (hd : (opts.map (·.name)).Nodup) (hk : (kw.map (·.1)).Nodup)
    (hne : ∀ p ∈ kw, p.1 ≠ "") (h : PyArg.processOptions L opts kw = .ok sel) {n : String} (hn : n ∈ opts.map (·.name)) :
    ∃ v, PyArg.holder opts sel n = some v ∧ Means opts kw n v ∧ str L opts sel n = PyArg.getString L v := by
  have hv := PyArg.option_value L opts hd kw hk hne sel h n
  obtain ⟨o, ho, hon⟩ := List.mem_map.mp hn
  have : ∃ v, Means opts kw n v := by
    by_cases hx : ∃ v, (n, v) ∈ kw
    · obtain ⟨v, hx⟩ := hx; exact ⟨v, .given v hx⟩
    · exact ⟨_, .default o ho hon (fun v hv => hx ⟨v, hv⟩)⟩
  obtain ⟨v, hm⟩ := this
  have hh := (hv v).mpr hm
  refine ⟨v, hh, hm, ?_⟩
  simp [str, PyArg.stringOption, hh]

theorem validate_none {W : World} {d r m : String} (h : validate W d r = .error m) :
    find W d r = none ∧ m = "on Region \"" ++ r ++ "\" on Device \"" ++ d ++ "\" does not exist.\n" := by
  unfold validate at h
  unfold find
  cases hd : W d with
  | none => rw [hd] at h; dsimp only at h; cases h; exact ⟨rfl, rfl⟩
  | some dev =>
    rw [hd] at h; dsimp only at h
    cases hr : dev.region r with
    | none => rw [hr] at h; dsimp only at h; cases h; exact ⟨by simp [hr], rfl⟩
    | some reg => rw [hr] at h; cases h

theorem validate_some {W : World} {d r : String} {dev : Dev} {reg : Reg} (h : validate W d r = .ok (dev, reg)) :
    W d = some dev ∧ dev.region r = some reg := by
  unfold validate at h
  cases hd : W d with
  | none => rw [hd] at h; cases h
  | some dev' =>
    rw [hd] at h; dsimp only at h
    cases hr : dev'.region r with
    | none => rw [hr] at h; cases h
    | some reg' => rw [hr] at h; dsimp only at h; cases h; exact ⟨rfl, hr⟩

theorem not_good {L : Lib} {opts : List Opt} {kw : List (String × Py)} (hd : (opts.map (·.name)).Nodup) (hk : (kw.map (·.1)).Nodup)
    (hne : ∀ p ∈ kw, p.1 ≠ "") {e} (h : PyArg.processOptions L opts kw = .error e) : ¬ PyArg.Good L opts kw := by
  rw [← PyArg.options_accepted_iff L opts hd kw hk hne]
  rintro ⟨sel, hs⟩
  rw [h] at hs; cases hs

/-- C88: `set_node_values`, `set_edge_values`, `set_element_values` with their keywords -/
theorem set_values_command (L : Lib) (F : Nat) (on : On) (W : World) (kw : List (String × Py)) (hk : (kw.map (·.1)).Nodup)
    (hne : ∀ p ∈ kw, p.1 ≠ "") :
    Does L F on W (valuesOpts L W) kw (fun k call => ∃ name init v, Text L (valuesOpts L W) kw "name" name ∧
      Text L (valuesOpts L W) kw "init_from" init ∧ Means (valuesOpts L W) kw "values" v ∧ call = .setValues k name init (given L v))
      (setValuesCmd L F on W kw) := by
  have hd : ((valuesOpts L W).map (·.name)).Nodup := by simp [valuesOpts, nameOpts]
  unfold Does setValuesCmd
  cases hp : PyArg.processOptions L (valuesOpts L W) kw with
  | error e => exact .inl ⟨not_good hd hk hne hp, e, rfl⟩
  | ok sel =>
    right
    refine ⟨(PyArg.options_accepted_iff L _ hd kw hk hne).mp ⟨sel, hp⟩, ?_⟩
    obtain ⟨vd, _, md, td⟩ := text_of hd hk hne hp (n := "device") (by simp [valuesOpts, nameOpts])
    obtain ⟨vr, _, mr, tr⟩ := text_of hd hk hne hp (n := "region") (by simp [valuesOpts, nameOpts])
    obtain ⟨vn, _, mn, tn⟩ := text_of hd hk hne hp (n := "name") (by simp [valuesOpts, nameOpts])
    obtain ⟨vi, _, mi, ti⟩ := text_of hd hk hne hp (n := "init_from") (by simp [valuesOpts, nameOpts])
    obtain ⟨vv, hv, mv, _⟩ := text_of hd hk hne hp (n := "values") (by simp [valuesOpts, nameOpts])
    refine ⟨_, _, ⟨vd, md, rfl⟩, ⟨vr, mr, rfl⟩, ?_⟩
    dsimp only
    rw [td, tr, tn, ti, hv]
    dsimp only
    cases hw : validate W (PyArg.getString L vd) (PyArg.getString L vr) with
    | error m =>
      obtain ⟨h1, h2⟩ := validate_none hw
      exact .inl ⟨h1, by rw [h2]⟩
    | ok p =>
      obtain ⟨dev, reg⟩ := p
      obtain ⟨h1, h2⟩ := validate_some hw
      right
      have yes : ∀ k, About on dev.dim k → ∃ (dev' : Dev) (reg' : Reg) (k' : Kind) (call : Call), W (PyArg.getString L vd) = some dev' ∧ dev'.region (PyArg.getString L vr) = some reg' ∧
          About on dev'.dim k' ∧ (∃ name init v, Text L (valuesOpts L W) kw "name" name ∧
            Text L (valuesOpts L W) kw "init_from" init ∧ Means (valuesOpts L W) kw "values" v ∧ call = .setValues k' name init (given L v)) ∧
          (setValuesR F reg k (PyArg.getString L vn) (PyArg.getString L vi) (given L vv)).2 = (step F reg' call).2 ∧
          OnlyRegion W (put W (PyArg.getString L vd) (PyArg.getString L vr)
            (setValuesR F reg k (PyArg.getString L vn) (PyArg.getString L vi) (given L vv)).1) (PyArg.getString L vd) (PyArg.getString L vr)
              (step F reg' call).1 := by
        intro k hk
        exact ⟨dev, reg, k, _, h1, h2, hk, ⟨_, _, vv, ⟨vn, mn, rfl⟩, ⟨vi, mi, rfl⟩, mv, rfl⟩, rfl, put_only h1 _⟩
      cases on with
      | nodes => exact .inr (yes .node (.nodes _))
      | edges => exact .inr (yes .edge (.edges _))
      | elements =>
        dsimp only
        by_cases e1 : dev.dim = 1
        · rw [if_pos e1]
          refine .inl ⟨dev, reg, h1, h2, ?_, _, rfl⟩
          intro k hk
          generalize dev.dim = n at hk e1
          subst e1
          cases hk
        · rw [if_neg e1]
          by_cases e2 : dev.dim = 2
          · rw [if_pos e2]; exact .inr (yes .tri (by rw [e2]; exact .triangles))
          · rw [if_neg e2]
            by_cases e3 : dev.dim = 3
            · rw [if_pos e3]; exact .inr (yes .tet (by rw [e3]; exact .tetrahedra))
            · rw [if_neg e3]
              refine .inl ⟨dev, reg, h1, h2, ?_, _, rfl⟩
              intro k hk
              generalize dev.dim = n at hk e2 e3
              cases hk with
              | triangles => exact e2 rfl
              | tetrahedra => exact e3 rfl

/-- C88: `set_node_value` with its keywords (an index or a value that the library cannot read as a number is told by the options, C64) -/
theorem set_value_command (L : Lib) (maxD minD : F64) (F : Nat) (W : World) (kw : List (String × Py)) (hk : (kw.map (·.1)).Nodup)
    (hne : ∀ p ∈ kw, p.1 ≠ "") :
    Does L F .nodes W (valueOpts L W) kw (fun _ call => ∃ name vi vx, Text L (valueOpts L W) kw "name" name ∧
      Means (valueOpts L W) kw "index" vi ∧ Means (valueOpts L W) kw "value" vx ∧
      ∃ i x, ((PyArg.getInteger L vi).1 = true → i = (PyArg.getInteger L vi).2) ∧ ((PyArg.getDouble L vx).1 = true → x = (PyArg.getDouble L vx).2) ∧
        call = .setOne name i x)
      (setOneCmd L maxD minD F W kw) := by
  have hd : ((valueOpts L W).map (·.name)).Nodup := by simp [valueOpts, nameOpts]
  unfold Does setOneCmd
  cases hp : PyArg.processOptions L (valueOpts L W) kw with
  | error e => exact .inl ⟨not_good hd hk hne hp, e, rfl⟩
  | ok sel =>
    right
    refine ⟨(PyArg.options_accepted_iff L _ hd kw hk hne).mp ⟨sel, hp⟩, ?_⟩
    obtain ⟨vd, _, md, td⟩ := text_of hd hk hne hp (n := "device") (by simp [valueOpts, nameOpts])
    obtain ⟨vr, _, mr, tr⟩ := text_of hd hk hne hp (n := "region") (by simp [valueOpts, nameOpts])
    obtain ⟨vn, _, mn, tn⟩ := text_of hd hk hne hp (n := "name") (by simp [valueOpts, nameOpts])
    obtain ⟨vi, hvi, mi, _⟩ := text_of hd hk hne hp (n := "index") (by simp [valueOpts, nameOpts])
    obtain ⟨vx, hvx, mx, _⟩ := text_of hd hk hne hp (n := "value") (by simp [valueOpts, nameOpts])
    refine ⟨_, _, ⟨vd, md, rfl⟩, ⟨vr, mr, rfl⟩, ?_⟩
    dsimp only
    rw [td, tr, tn]
    cases hw : validate W (PyArg.getString L vd) (PyArg.getString L vr) with
    | error m =>
      obtain ⟨h1, h2⟩ := validate_none hw
      exact .inl ⟨h1, by rw [h2]⟩
    | ok p =>
      obtain ⟨dev, reg⟩ := p
      obtain ⟨h1, h2⟩ := validate_some hw
      right; right
      refine ⟨dev, reg, .node, .setOne (PyArg.getString L vn) _ _, h1, h2, .nodes _, ⟨_, vi, vx, ⟨vn, mn, rfl⟩, mi, mx, _, _, ?_, ?_, rfl⟩, rfl, put_only h1 _⟩
      · intro h; simp [PyArg.integerOption, hvi, h]
      · intro h; simp [PyArg.doubleOption, hvx, h]

/-- C88: `get_…_model_values`, `print_…_values`, `delete_…_model` with their keywords -/
theorem show_command (L : Lib) (F : Nat) (on : On) (what : Show) (W : World) (kw : List (String × Py)) (hk : (kw.map (·.1)).Nodup)
    (hne : ∀ p ∈ kw, p.1 ≠ "") :
    Does L F on W (nameOpts L W) kw (fun k call => ∃ name, Text L (nameOpts L W) kw "name" name ∧ call = .show what k name)
      (showCmd L F on what W kw) := by
  have hd : ((nameOpts L W).map (·.name)).Nodup := by simp [nameOpts]
  unfold Does showCmd
  cases hp : PyArg.processOptions L (nameOpts L W) kw with
  | error e => exact .inl ⟨not_good hd hk hne hp, e, rfl⟩
  | ok sel =>
    right
    refine ⟨(PyArg.options_accepted_iff L _ hd kw hk hne).mp ⟨sel, hp⟩, ?_⟩
    obtain ⟨vd, _, md, td⟩ := text_of hd hk hne hp (n := "device") (by simp [nameOpts])
    obtain ⟨vr, _, mr, tr⟩ := text_of hd hk hne hp (n := "region") (by simp [nameOpts])
    obtain ⟨vn, _, mn, tn⟩ := text_of hd hk hne hp (n := "name") (by simp [nameOpts])
    refine ⟨_, _, ⟨vd, md, rfl⟩, ⟨vr, mr, rfl⟩, ?_⟩
    dsimp only
    rw [td, tr, tn]
    cases hw : validate W (PyArg.getString L vd) (PyArg.getString L vr) with
    | error m =>
      obtain ⟨h1, h2⟩ := validate_none hw
      exact .inl ⟨h1, by rw [h2]⟩
    | ok p =>
      obtain ⟨dev, reg⟩ := p
      obtain ⟨h1, h2⟩ := validate_some hw
      right
      have yes : ∀ k, About on dev.dim k → ∃ (dev' : Dev) (reg' : Reg) (k' : Kind) (call : Call), W (PyArg.getString L vd) = some dev' ∧ dev'.region (PyArg.getString L vr) = some reg' ∧
          About on dev'.dim k' ∧ (∃ name, Text L (nameOpts L W) kw "name" name ∧ call = .show what k' name) ∧
          (showR F what reg k (PyArg.getString L vn)).2 = (step F reg' call).2 ∧
          OnlyRegion W (put W (PyArg.getString L vd) (PyArg.getString L vr) (showR F what reg k (PyArg.getString L vn)).1)
            (PyArg.getString L vd) (PyArg.getString L vr) (step F reg' call).1 := by
        intro k hk
        exact ⟨dev, reg, k, _, h1, h2, hk, ⟨_, ⟨vn, mn, rfl⟩, rfl⟩, rfl, put_only h1 _⟩
      cases on with
      | nodes => exact .inr (yes .node (.nodes _))
      | edges => exact .inr (yes .edge (.edges _))
      | elements =>
        dsimp only
        by_cases e2 : dev.dim = 2
        · rw [if_pos e2]; exact .inr (yes .tri (by rw [e2]; exact .triangles))
        · rw [if_neg e2]
          by_cases e3 : dev.dim = 3
          · rw [if_pos e3]; exact .inr (yes .tet (by rw [e3]; exact .tetrahedra))
          · rw [if_neg e3]
            refine .inl ⟨dev, reg, h1, h2, ?_, _, rfl⟩
            intro k hk
            generalize dev.dim = n at hk e2 e3
            cases hk with
            | triangles => exact e2 rfl
            | tetrahedra => exact e3 rfl

/-- what must be given, and what a missing keyword means -/
theorem keywords (L : Lib) (W : World) (kw : List (String × Py)) (tail : List Opt) :
    (PyArg.Good L (nameOpts L W ++ tail) kw → ∀ n ∈ ["device", "region", "name"], ∃ v, (n, v) ∈ kw) ∧
    (∀ v, Means (valueOpts L W) kw "index" v → (("index", v) ∈ kw ∨ ((∀ u, ("index", u) ∉ kw) ∧ v = .str "-1"))) ∧
    (∀ v, Means (valuesOpts L W) kw "init_from" v → (("init_from", v) ∈ kw ∨ ((∀ u, ("init_from", u) ∉ kw) ∧ v = .str ""))) ∧
    (PyArg.Good L (valueOpts L W) kw → ∃ v, ("value", v) ∈ kw) := by
  refine ⟨?_, ?_, ?_, ?_⟩
  · intro h n hn
    have key : ∃ o ∈ nameOpts L W ++ tail, o.required = true ∧ o.name = n := by
      simp only [List.mem_cons, List.not_mem_nil, or_false] at hn
      rcases hn with rfl | rfl | rfl <;> simp [nameOpts]
    obtain ⟨o, ho, hr, rfl⟩ := key
    exact h.required o ho hr
  · intro v h
    cases h with
    | given v h => exact .inl h
    | default o ho hn h =>
      right; refine ⟨h, ?_⟩
      simp only [valueOpts, nameOpts, List.cons_append, List.nil_append, List.mem_cons, List.not_mem_nil, or_false] at ho
      rcases ho with rfl | rfl | rfl | rfl | rfl <;> simp at hn ⊢
  · intro v h
    cases h with
    | given v h => exact .inl h
    | default o ho hn h =>
      right; refine ⟨h, ?_⟩
      simp only [valuesOpts, nameOpts, List.cons_append, List.nil_append, List.mem_cons, List.not_mem_nil, or_false] at ho
      rcases ho with rfl | rfl | rfl | rfl | rfl <;> simp at hn ⊢
  · intro h
    exact h.required ⟨"value", "0.0", .float, true, none⟩ (by simp [valueOpts]) rfl

/-- the values that a `values` option stands for: the numbers of the list (C65 says which), and none if they are no numbers -/
theorem given_iff (L : Lib) (v : Py) :
    (∀ l, PyArg.getDoubleList L v = some l → (PyArg.listOf v).isSome → given L v = l) ∧
    ((PyArg.getDoubleList L v = none ∨ PyArg.listOf v = none) → given L v = []) := by
  unfold given
  refine ⟨fun l h1 h2 => by simp [h1, h2], ?_⟩
  rintro (h | h) <;> simp [h]

/-- `get_element_model_list` in one dimension is an error with an empty text, not an empty list -/
theorem element_list_1d (keys : Kind → List String) : listR .elements 1 keys = .err "" := rfl

theorem model_list (on : On) (dim : Nat) (keys : Kind → List String) (k : Kind) (h : About on dim k) : listR on dim keys = .names (keys k) := by
  cases h <;> rfl

end Verif.SetVals
