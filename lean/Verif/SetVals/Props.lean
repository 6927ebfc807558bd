import Verif.SetVals.Lemmas

/-!
# C88: the values of models as the script sets and reads them
-/

namespace Verif.SetVals

open Verif.Deps (Kind Dfn Src Denotes Inv Impl Unique)
open Verif.PyArg (F64)

/-- the region after a call: same numbers of nodes and so on -/
def SameShape (r r' : Reg) : Prop := r'.count = r.count ∧ r'.contact = r.contact

theorem decide_eq (t : Target) (exist initExist : Bool) (name init : String) (given iv : List F64) (n : Nat)
    (he : exist = true) (hi : init = "" ∨ initExist = true) :
    decide (E := Empty) false t exist initExist name init given iv [] n =
      if (if initExist = true ∧ t = .sol then iv else given).length = n then
        .set (if initExist = true ∧ t = .sol then iv else given)
      else .refuse "wrong number of elements\n" := by
  unfold decide
  dsimp only
  rw [if_neg (by simp [he]), if_neg (by rcases hi with h | h <;> simp [h])]
  simp

/-- `set_node_values` and its likes on a region: their outcome in terms of whether the models exist -/
theorem setValuesR_eq (F : Nat) (r : Reg) (k : Kind) (name init : String) (vals : List F64) (data : Bool)
    (hd : data = ((r.st.tab k name).map SetVals.isData).getD false) :
    setValuesR F r k name init vals =
      if (r.st.tab k init).isSome = true ∧ data = true then
        match readVals F r k init with
        | (r', none) => (r', .fatal)
        | (r', some iv) =>
          if iv.length = r.count k then (storeList r' k name iv, .empty) else (r', .err "wrong number of elements\n")
      else if (r.st.tab k name).isSome = false then (r, .err ("Model " ++ name ++ " does not exist\n"))
      else if init ≠ "" ∧ (r.st.tab k init).isSome = false then (r, .err ("-init_from " ++ init ++ " does not exist\n"))
      else if vals.length = r.count k then (storeList r k name vals, .empty)
      else (r, .err "wrong number of elements\n") := by
  unfold setValuesR
  dsimp only
  cases hm : r.st.tab k name with
  | none =>
    have : data = false := by rw [hd, hm]; rfl
    subst this
    simp [decide]
  | some M =>
    rw [hm] at hd
    replace hd : data = SetVals.isData M := hd
    by_cases hM : SetVals.isData M = true
    · rw [hM] at hd; subst hd
      by_cases hi : (r.st.tab k init).isSome = true
      · simp only [hM, hi, if_true, and_self]
        cases hr : readVals F r k init with
        | mk r' o =>
          cases o with
          | none => rfl
          | some iv =>
            dsimp only
            rw [decide_eq .sol (some M).isSome true name init vals iv (r.count k) rfl (.inr rfl)]
            simp only [and_self, if_true]
            by_cases hl : iv.length = r.count k <;> simp [hl]
      · replace hi : (r.st.tab k init).isSome = false := by simpa using hi
        simp only [hM, hi, Bool.false_eq_true, false_and, if_false, if_true, Option.isSome_some, reduceCtorEq, decide, and_true]
        by_cases h0 : init = ""
        · by_cases hl : vals.length = r.count k <;> simp [hl, h0]
        · simp [h0]
    · replace hM : SetVals.isData M = false := by simpa using hM
      rw [hM] at hd; subst hd
      by_cases hi : (r.st.tab k init).isSome = true
      · simp only [hM, hi, decide, Bool.false_eq_true, if_false, Option.isSome_some, reduceCtorEq, and_false, false_and]
        by_cases hl : vals.length = r.count k <;> simp [hl]
      · replace hi : (r.st.tab k init).isSome = false := by simpa using hi
        simp only [hM, hi, decide, Bool.false_eq_true, if_false, Option.isSome_some, reduceCtorEq, and_false, false_and, and_self, and_true]
        by_cases h0 : init = ""
        · by_cases hl : vals.length = r.count k <;> simp [hl, h0]
        · simp [h0]

theorem step_acct {F names} {r : Reg} {src} (g : Good F names r.st src) (c : Call) (hok : Ok src c)
    (hn : ∀ k n d, c = .define k n d → n ∈ names) :
    ∃ src', Acct r.count r.contact src c (step F r c).2 src' ∧ Good F names (step F r c).1.st src' ∧ SameShape r (step F r c).1 := by
  cases c with
  | setValues k name init vals =>
    simp only [step]
    rw [setValuesR_eq F r k name init vals _ rfl]
    have he := isSome_iff g k name
    have hi := isSome_iff g k init
    have hdata : (((r.st.tab k name).map SetVals.isData).getD false = true ↔ IsData src k name) := by
      cases hm : r.st.tab k name with
      | none =>
        have : ¬ Exists src k name := by rw [← he, hm]; simp
        simp only [Option.map_none, Option.getD_none, Bool.false_eq_true, false_iff]
        exact fun h => this ⟨_, h⟩
      | some M =>
        have hd := tab_dfn g hm
        have hsol : M.dfn = .sol := hok k M.dfn hd
        simp only [Option.map_some, Option.getD_some, SetVals.isData, hsol, true_iff]
        unfold IsData; rw [hd, hsol]
    by_cases h1 : (r.st.tab k init).isSome = true ∧ ((r.st.tab k name).map SetVals.isData).getD false = true
    · rw [if_pos h1]
      have hix : Exists src k init := hi.mp h1.1
      have hdt : IsData src k name := hdata.mp h1.2
      have hex : Exists src k name := ⟨_, hdt⟩
      obtain ⟨gr, hcount, hcontact, hval⟩ := readVals_spec g k init
      revert gr hcount hcontact hval
      cases hr : readVals F r k init with
      | mk r' o =>
        intro gr hcount hcontact hval
        dsimp only at gr hcount hcontact hval
        cases o with
        | none =>
          refine ⟨src, .initFails k name init vals hix hdt ?_, gr, hcount, hcontact⟩
          intro l hl
          have := (hval l).mpr hl
          simp at this
        | some iv =>
          dsimp only
          have hasked : Asked src (r.count k) k name init vals iv := .init iv hix hdt ((hval iv).mp rfl)
          by_cases hl : iv.length = r.count k
          · rw [if_pos hl, storeList_eq]
            obtain ⟨src', hs, hg⟩ := good_assign gr hex hok (placed (r'.count k) (r'.contact k name) iv)
            refine ⟨src', .set k name init vals iv src' hex (.inr hix) hasked hl ?_, hg, hcount, hcontact⟩
            rw [hcount, hcontact] at hs
            exact hs
          · rw [if_neg hl]
            exact ⟨src, .wrongNumber k name init vals iv hex (.inr hix) hasked hl, gr, hcount, hcontact⟩
    · rw [if_neg h1]
      have hna : ¬ (Exists src k init ∧ IsData src k name) := by rw [← hi, ← hdata]; exact h1
      by_cases h2 : (r.st.tab k name).isSome = false
      · rw [if_pos h2]
        exact ⟨src, .noModel k name init vals (by rw [← he, h2]; simp), g, rfl, rfl⟩
      · rw [if_neg h2]
        have hex : Exists src k name := he.mp (by cases hx : (r.st.tab k name).isSome <;> simp [hx] at h2 ⊢)
        by_cases h3 : init ≠ "" ∧ (r.st.tab k init).isSome = false
        · rw [if_pos h3]
          exact ⟨src, .noInit k name init vals hex ⟨h3.1, by rw [← hi, h3.2]; simp⟩, g, rfl, rfl⟩
        · rw [if_neg h3]
          have h4 : init = "" ∨ Exists src k init := by
            rw [← hi]
            by_cases h0 : init = ""
            · exact .inl h0
            · right; by_contra hc; exact h3 ⟨h0, by simpa using hc⟩
          by_cases hl : vals.length = r.count k
          · rw [if_pos hl, storeList_eq]
            obtain ⟨src', hs, hg⟩ := good_assign g hex hok (placed (r.count k) (r.contact k name) vals)
            exact ⟨src', .set k name init vals vals src' hex h4 (.vals hna) hl hs, hg, rfl, rfl⟩
          · rw [if_neg hl]
            exact ⟨src, .wrongNumber k name init vals vals hex h4 (.vals hna) hl, g, rfl, rfl⟩
  | setOne name index x =>
    simp only [step]
    unfold setOneR
    have he := isSome_iff g .node name
    by_cases h1 : (r.st.tab .node name).isNone = true
    · rw [if_pos h1]
      exact ⟨src, .noNode name index x (by rw [← he]; simpa using h1), g, rfl, rfl⟩
    · rw [if_neg h1]
      have hex : Exists src .node name := he.mp (by
        cases h : r.st.tab .node name <;> simp [h] at h1 ⊢)
      by_cases h2 : index < -1 ∨ (index ≠ -1 ∧ (r.count .node : Int) ≤ index)
      · rw [if_pos h2]
        exact ⟨src, .noIndex name x index hex (by omega) (by omega), g, rfl, rfl⟩
      · rw [if_neg h2]
        by_cases h3 : index = -1
        · subst h3
          rw [if_pos rfl, storeAll_eq]
          obtain ⟨src', hs, hg⟩ := good_assign g hex hok (placedAll (r.count .node) (r.contact .node name) x)
          exact ⟨src', .setEverywhere name x src' hex hs, hg, rfl, rfl⟩
        · rw [if_neg h3]
          obtain ⟨i, rfl⟩ : ∃ i : Nat, index = (i : Int) := ⟨index.toNat, by omega⟩
          have hlt : i < r.count .node := by omega
          obtain ⟨gr, hcount, hcontact, hval⟩ := readVals_spec g .node name
          revert gr hcount hcontact hval
          cases hr : readVals F r .node name with
          | mk r' o =>
            intro gr hcount hcontact hval
            dsimp only at gr hcount hcontact hval
            cases o with
            | none =>
              refine ⟨src, .oneFails name i x hex hlt ?_, gr, hcount, hcontact⟩
              intro l hl
              have := (hval l).mpr hl
              simp at this
            | some l =>
              dsimp only
              have hv := (hval l).mp rfl
              cases hc : r.contact .node name with
              | some ix =>
                dsimp only
                rw [storeAll_eq]
                obtain ⟨src', hs, hg⟩ := good_assign gr hex hok (placedAll (r'.count .node) (r'.contact .node name) x)
                refine ⟨src', .setContact name x src' l i ix hex hlt hc hv ?_, hg, hcount, hcontact⟩
                rw [hcount, hcontact, hc] at hs
                exact hs
              | none =>
                dsimp only
                rw [storeList_eq]
                obtain ⟨src', hs, hg⟩ := good_assign gr hex hok (placed (r'.count .node) (r'.contact .node name) (l.set (i : Int).toNat x))
                refine ⟨src', .setThere name i x l src' hex hlt hc hv ?_, hg, hcount, hcontact⟩
                rw [hcontact, hc] at hs
                exact hs
  | «show» w k name =>
    have he := isSome_iff g k name
    simp only [step]
    by_cases h1 : (r.st.tab k name).isNone = true
    · have hne : ¬ Exists src k name := by rw [← he]; simpa using h1
      have : showR F w r k name = (r, .err (label k ++ " " ++ name ++ " does not exist\n")) := by
        cases w <;> simp [showR, printR, getR, deleteR, h1]
      rw [this]
      exact ⟨src, .unknown w k name hne, g, rfl, rfl⟩
    · have hex : Exists src k name := he.mp (by cases h : r.st.tab k name <;> simp [h] at h1 ⊢)
      obtain ⟨gr, hcount, hcontact, hval⟩ := readVals_spec g k name
      cases w with
      | delete =>
        simp only [showR]
        unfold deleteR
        rw [if_neg h1]
        dsimp only
        obtain ⟨d, hd⟩ := hex
        have es : src.step zero (.delete k name) = { src with defn := fun m => if m = name then none else src.defn m } := by
          simp [Src.step, hd]
        have := good_step g (.delete k name) trivial (by
          rw [es]; intro m k' d' h; dsimp only at h
          split at h
          · cases h
          · exact g.cover m k' d' h)
        refine ⟨_, .deleted k name _ ⟨d, hd⟩ ?_ ?_ ?_ ?_, this, rfl, rfl⟩
        · rw [es]; simp
        · intro m hm; rw [es]; simp [hm]
        · rw [es]
        · rw [es]
      | get =>
        simp only [showR]
        unfold getR
        rw [if_neg h1]
        revert gr hcount hcontact hval
        cases hr : readVals F r k name with
        | mk r' o =>
          intro gr hcount hcontact hval
          dsimp only at gr hcount hcontact hval
          cases o with
          | none =>
            refine ⟨src, .showFails .get k name (by decide) hex ?_, gr, hcount, hcontact⟩
            intro l hl
            have := (hval l).mpr hl
            simp at this
          | some l =>
            dsimp only
            have hv := (hval l).mp rfl
            by_cases hl : l = []
            · subst hl
              rw [if_pos rfl]
              exact ⟨src, .gotNone k name hex hv, gr, hcount, hcontact⟩
            · rw [if_neg hl]
              exact ⟨src, .got k name l hex hv hl, gr, hcount, hcontact⟩
      | print =>
        simp only [showR]
        unfold printR
        rw [if_neg h1]
        revert gr hcount hcontact hval
        cases hr : readVals F r k name with
        | mk r' o =>
          intro gr hcount hcontact hval
          dsimp only at gr hcount hcontact hval
          cases o with
          | none =>
            refine ⟨src, .showFails .print k name (by decide) hex ?_, gr, hcount, hcontact⟩
            intro l hl
            have := (hval l).mpr hl
            simp at this
          | some l => exact ⟨src, .printed k name l hex ((hval l).mp rfl), gr, hcount, hcontact⟩
  | define k n d =>
    simp only [step]
    have hun := hok.1
    have es : src.step zero (.define k n d) = { src with defn := fun m => if m = n then some (k, d) else src.defn m,
                                                         data := fun m => if m = n then zero else src.data m } := by
      simp [Src.step, hun]
    have hg := good_step g (.define k n d) hok (by
      rw [es]; intro m k' d' h; dsimp only at h
      split at h
      · rename_i hm; rw [hm]; exact hn k n d rfl
      · exact g.cover m k' d' h)
    have hdef : ∃ s, Deps.define zero r.st k n d = some s := by
      have hfn : Deps.find r.st n = none := by rw [← Deps.abs_defn_none (zero := zero), g.impl.1]; exact hun
      have hk := Deps.find_eq_none.mp hfn
      unfold Deps.define Deps.addModel
      by_cases h1 : (r.st.tab k n).isSome = true
      · rw [if_pos h1]; exact ⟨_, rfl⟩
      · rw [if_neg h1, if_neg (by rw [hk]; simp)]; exact ⟨_, rfl⟩
    obtain ⟨s, hs⟩ := hdef
    rw [hs]
    dsimp only
    refine ⟨_, .defined k n d (src.step zero (.define k n d)) hun ?_ ?_ ?_ ?_ ?_, ?_, rfl, rfl⟩
    · rw [es]; simp
    · intro m hm; rw [es]; simp [hm]
    · rw [es]; simp [zero]
    · intro m hm; rw [es]; simp [hm]
    · rw [es]
    · simpa [Deps.step, hs] using hg
  | setPar p v =>
    simp only [step]
    have hg := good_step g (.setPar p v) trivial g.cover
    exact ⟨_, .par p v (src.step zero (.setPar p v)) rfl rfl (by simp [Src.step]) (fun q hq => by simp [Src.step, hq]), hg, rfl, rfl⟩

end Verif.SetVals
