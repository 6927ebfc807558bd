import Verif.Mat.Lists
import Verif.EqCmd.Cmds

/-!
# C95: the commands with their keywords
-/
namespace Verif.Mat
open Verif
open Verif.PyArg (Py Lib Opt Means)
open Verif.SetVals (Text text_of not_good)
open Verif.EqCmd (held held_text)
open Verif.Mat.Spec

theorem opts_nodup (L : Lib) (W : World) (c : Cmd) : ((opts L W c).map (·.name)).Nodup := by
  cases c <;> simp [opts, EqCmd.text]

/-- the texts of a call: what the user wrote, or the empty text; and the object given as `value` -/
structure Means' (L : Lib) (W : World) (c : Cmd) (kw : List (String × Py)) (g : String → String) (v : Py) : Prop where
  text : ∀ n, n ∈ (opts L W c).map (·.name) → Text L (opts L W c) kw n (g n)
  other : ∀ n, n ∉ (opts L W c).map (·.name) → g n = ""
  value : c = .setParameter → ("value", v) ∈ kw

theorem holder_none {opts : List Opt} {kw sel : List (String × Py)} {L : Lib} (hd : (opts.map (·.name)).Nodup) (hk : (kw.map (·.1)).Nodup)
    (hne : ∀ p ∈ kw, p.1 ≠ "") (h : PyArg.processOptions L opts kw = .ok sel) {n : String} (hn : n ∉ opts.map (·.name)) :
    PyArg.holder opts sel n = none := by
  cases hx : PyArg.holder opts sel n with
  | none => rfl
  | some v =>
    exfalso
    have hv := (PyArg.option_value L opts hd kw hk hne sel h n v).mp hx
    have hg := (PyArg.options_accepted_iff L opts hd kw hk hne).mp ⟨sel, h⟩
    cases hv with
    | given _ hv =>
      obtain ⟨o, ho, hon, _⟩ := hg.known n v hv
      exact hn (List.mem_map.mpr ⟨o, ho, hon⟩)
    | default o ho hon _ => exact hn (List.mem_map.mpr ⟨o, ho, hon⟩)

/-- **C95** with keywords: bad ones are an error and nothing happens; otherwise the command is done with what the user wrote. -/
theorem keywords (L : Lib) (W : World) (c : Cmd) (kw : List (String × Py)) (hk : (kw.map (·.1)).Nodup) (hne : ∀ p ∈ kw, p.1 ≠ "") :
    (¬ PyArg.Good L (opts L W c) kw ∧ ∃ e, call L W c kw = (W, .badArgs e)) ∨
    (PyArg.Good L (opts L W c) kw ∧ ∃ g v, Means' L W c kw g v ∧ call L W c kw = command W c g v) := by
  unfold call
  have hd := opts_nodup L W c
  cases hp : PyArg.processOptions L (opts L W c) kw with
  | error e => exact .inl ⟨not_good hd hk hne hp, e, rfl⟩
  | ok sel =>
    right
    have hg := (PyArg.options_accepted_iff L _ hd kw hk hne).mp ⟨sel, hp⟩
    refine ⟨hg, _, _, ⟨?_, ?_, ?_⟩, rfl⟩
    · intro n hn
      obtain ⟨v, h1, h2, _⟩ := text_of hd hk hne hp hn
      exact ⟨v, h2, by simp [PyArg.stringOption, h1]⟩
    · intro n hn
      simp [PyArg.stringOption, holder_none hd hk hne hp hn]
    · rintro rfl
      obtain ⟨v, hv⟩ := hg.required ⟨"value", "", .string, true, some (SetVals.notEmpty L)⟩ (by simp [opts]) rfl
      have := (PyArg.option_value L _ hd kw hk hne sel hp "value" v).mpr (.given v hv)
      rw [this]; exact hv

/-- what the keywords mean is fixed: the texts are determined -/
theorem keywords_fixed {L : Lib} {W : World} {c : Cmd} {kw : List (String × Py)} (hk : (kw.map (·.1)).Nodup) {g g' : String → String} {v v' : Py}
    (h : Means' L W c kw g v) (h' : Means' L W c kw g' v') : g = g' ∧ (c = .setParameter → v = v') := by
  have hd := opts_nodup L W c
  constructor
  · funext n
    by_cases hn : n ∈ (opts L W c).map (·.name)
    · obtain ⟨x, hx, ex⟩ := h.text n hn
      obtain ⟨y, hy, ey⟩ := h'.text n hn
      have a := (PyArg.holder_means hd hk n x).mpr hx
      have b := (PyArg.holder_means hd hk n y).mpr hy
      rw [a] at b; cases b
      rw [← ex, ← ey]
    · rw [h.other n hn, h'.other n hn]
  · intro hc
    have a := (PyArg.lookup_reverse hk "value" v).2 (h.value hc)
    have b := (PyArg.lookup_reverse hk "value" v').2 (h'.value hc)
    rw [a] at b; cases b; rfl

/-- the commands that ask for a device that is there -/
def asksDevice : Cmd → Bool
  | .setMaterial | .getMaterial | .dimension | .regionList | .interfaceList | .contactList => true
  | _ => false

/-- **C95** what the checks see to: the device of the commands that ask for one is there (also for `get_dimension`, whose option is declared as one that
may be left out); the two reading commands on parameters take no region without a device; a parameter has a name and a value with a text. -/
theorem checked {L : Lib} {W : World} {c : Cmd} {kw : List (String × Py)} (hk : (kw.map (·.1)).Nodup) (hg : PyArg.Good L (opts L W c) kw)
    {g : String → String} {v : Py} (hm : Means' L W c kw g v) :
    (asksDevice c = true → g "device" ≠ "" ∧ (W.devs.get (g "device")).isSome) ∧
    (c = .getParameter ∨ c = .parameterList → g "region" ≠ "" → g "device" ≠ "") ∧
    (c = .setParameter ∨ c = .getParameter → g "name" ≠ "") ∧
    (c = .setParameter → PyArg.getString L v ≠ "") ∧
    (c = .setMaterial → g "material" ≠ "") := by
  have hd := opts_nodup L W c
  have nonempty : ∀ n, (⟨n, "", .string, true, some (SetVals.notEmpty L)⟩ : Opt) ∈ opts L W c → g n ≠ "" := by
    intro n ho
    obtain ⟨h, hc, hh⟩ := hg.checked _ ho _ rfl
    obtain ⟨x, hx, ex⟩ := hm.text n (List.mem_map.mpr ⟨_, ho, rfl⟩)
    have := (hh n x).mpr hx
    dsimp only [SetVals.notEmpty] at hc
    rw [this] at hc
    rw [← ex]; exact of_decide_eq_true hc
  have device : ∀ req, (⟨"device", "", .string, req, some (validDevice L W)⟩ : Opt) ∈ opts L W c → g "device" ≠ "" ∧
      (W.devs.get (g "device")).isSome := by
    intro req ho
    obtain ⟨h, hc, hh⟩ := hg.checked _ ho _ rfl
    have e := held_text hh hd hk (hm.text "device" (List.mem_map.mpr ⟨_, ho, rfl⟩))
    have := of_decide_eq_true hc
    dsimp only at this
    rw [e] at this; exact this
  have region : (⟨"device", "", .string, false, some (ifRegion L)⟩ : Opt) ∈ opts L W c → "region" ∈ (opts L W c).map (·.name) →
      g "region" ≠ "" → g "device" ≠ "" := by
    intro ho hr
    obtain ⟨h, hc, hh⟩ := hg.checked _ ho _ rfl
    have e1 := held_text hh hd hk (hm.text "device" (List.mem_map.mpr ⟨_, ho, rfl⟩))
    have e2 := held_text hh hd hk (hm.text "region" hr)
    have := of_decide_eq_true hc
    dsimp only at this
    rw [e1, e2] at this
    intro a b; exact this ⟨b, a⟩
  refine ⟨?_, ?_, ?_, ?_, ?_⟩
  · intro hc
    cases c <;> simp only [asksDevice, Bool.false_eq_true] at hc
    case dimension => exact device false (by simp [opts])
    all_goals exact device true (by simp [opts])
  · rintro (rfl | rfl)
    · exact region (by simp [opts]) (by simp [opts, EqCmd.text])
    · exact region (by simp [opts]) (by simp [opts, EqCmd.text])
  · rintro (rfl | rfl)
    · exact nonempty "name" (by simp [opts])
    · exact nonempty "name" (by simp [opts])
  · rintro rfl
    have ho : (⟨"value", "", .string, true, some (SetVals.notEmpty L)⟩ : Opt) ∈ opts L W .setParameter := by simp [opts]
    have h1 := nonempty "value" ho
    obtain ⟨x, hx, ex⟩ := hm.text "value" (List.mem_map.mpr ⟨_, ho, rfl⟩)
    have a := (PyArg.holder_means hd hk "value" x).mpr hx
    have b := (PyArg.holder_means hd hk "value" v).mpr (.given v (hm.value rfl))
    rw [a] at b; cases b
    rw [ex]; exact h1
  · rintro rfl; exact nonempty "material" (by simp [opts])

/-- the keywords of the commands -/
def keywordsOf : Cmd → List String
  | .setParameter => ["device", "region", "name", "value"]
  | .getParameter => ["device", "region", "name"]
  | .parameterList => ["device", "region"]
  | .setMaterial => ["device", "region", "contact", "material"]
  | .getMaterial => ["device", "region", "contact"]
  | .dimension => ["device"]
  | .deviceList => []
  | .regionList => ["device", "contact", "interface"]
  | .interfaceList => ["device"]
  | .contactList => ["device"]

/-- those that must be given -/
def requiredOf : Cmd → List String
  | .setParameter => ["name", "value"]
  | .getParameter => ["name"]
  | .setMaterial => ["device", "material"]
  | .getMaterial | .regionList | .interfaceList | .contactList => ["device"]
  | .parameterList | .dimension | .deviceList => []

/-- the keywords of the commands and which of them must be given -/
theorem keywords_known (L : Lib) (W : World) (c : Cmd) (kw : List (String × Py)) (hg : PyArg.Good L (opts L W c) kw) :
    (∀ p ∈ kw, p.1 ∈ keywordsOf c) ∧ ∀ n ∈ requiredOf c, ∃ v, (n, v) ∈ kw := by
  constructor
  · rintro ⟨n, v⟩ hp
    obtain ⟨o, ho, rfl, _⟩ := hg.known n v hp
    cases c <;> simp only [opts, EqCmd.text, List.mem_cons, List.not_mem_nil, or_false] at ho
    case setParameter => rcases ho with rfl | rfl | rfl | rfl <;> simp [keywordsOf]
    case getParameter => rcases ho with rfl | rfl | rfl <;> simp [keywordsOf]
    case parameterList => rcases ho with rfl | rfl <;> simp [keywordsOf]
    case setMaterial => rcases ho with rfl | rfl | rfl | rfl <;> simp [keywordsOf]
    case getMaterial => rcases ho with rfl | rfl | rfl <;> simp [keywordsOf]
    case dimension => subst ho; simp [keywordsOf]
    case regionList => rcases ho with rfl | rfl | rfl <;> simp [keywordsOf]
    case interfaceList => subst ho; simp [keywordsOf]
    case contactList => subst ho; simp [keywordsOf]
  · intro n hn
    cases c <;> simp only [requiredOf, List.mem_cons, List.not_mem_nil, or_false] at hn
    case setParameter =>
      rcases hn with rfl | rfl
      · exact hg.required ⟨"name", "", .string, true, some (SetVals.notEmpty L)⟩ (by simp [opts]) rfl
      · exact hg.required ⟨"value", "", .string, true, some (SetVals.notEmpty L)⟩ (by simp [opts]) rfl
    case getParameter => subst hn; exact hg.required ⟨"name", "", .string, true, some (SetVals.notEmpty L)⟩ (by simp [opts]) rfl
    case setMaterial =>
      rcases hn with rfl | rfl
      · exact hg.required ⟨"device", "", .string, true, some (validDevice L W)⟩ (by simp [opts]) rfl
      · exact hg.required ⟨"material", "", .string, true, some (SetVals.notEmpty L)⟩ (by simp [opts]) rfl
    all_goals
      subst hn; exact hg.required ⟨"device", "", .string, true, some (validDevice L W)⟩ (by simp [opts]) rfl

/-- **C95** the keywords of a call are accepted if they are those of the command, with the ones that must be given, a device that is there if the
command asks for one, and no empty texts where a text is needed. -/
theorem keywords_accepted {L : Lib} {W : World} {c : Cmd} {kw : List (String × Py)} (hk : (kw.map (·.1)).Nodup)
    (h1 : ∀ p ∈ kw, p.1 ∈ keywordsOf c) (h2 : ∀ n ∈ requiredOf c, ∃ v, (n, v) ∈ kw) {g : String → String} {v : Py} (hm : Means' L W c kw g v)
    (hdev : asksDevice c = true → g "device" ≠ "" ∧ (W.devs.get (g "device")).isSome)
    (hreg : c = .getParameter ∨ c = .parameterList → g "region" ≠ "" → g "device" ≠ "")
    (hname : c = .setParameter ∨ c = .getParameter → g "name" ≠ "") (hval : c = .setParameter → PyArg.getString L v ≠ "")
    (hmat : c = .setMaterial → g "material" ≠ "") : PyArg.Good L (opts L W c) kw := by
  have hd := opts_nodup L W c
  have hh := fun n v => PyArg.holder_means hd hk n v
  have nonempty : ∀ n, n ∈ (opts L W c).map (·.name) → g n ≠ "" → SetVals.notEmpty L n (PyArg.holder (opts L W c) (kw.reverse ++ [])) = true := by
    intro n hn hg
    obtain ⟨x, hx, ex⟩ := hm.text n hn
    unfold SetVals.notEmpty
    rw [(hh n x).mpr hx]
    exact decide_eq_true (by rw [ex]; exact hg)
  have heldg : ∀ n, n ∈ (opts L W c).map (·.name) → held L (PyArg.holder (opts L W c) (kw.reverse ++ [])) n = g n :=
    fun n hn => held_text hh hd hk (hm.text n hn)
  refine ⟨?_, ?_, ?_⟩
  · intro n x hx
    have := h1 _ hx
    cases c <;> simp only [keywordsOf, List.mem_cons, List.not_mem_nil, or_false] at this
    case setParameter => rcases this with rfl | rfl | rfl | rfl <;> simp [opts, EqCmd.text, PyArg.convertible]
    case getParameter => rcases this with rfl | rfl | rfl <;> simp [opts, EqCmd.text, PyArg.convertible]
    case parameterList => rcases this with rfl | rfl <;> simp [opts, EqCmd.text, PyArg.convertible]
    case setMaterial => rcases this with rfl | rfl | rfl | rfl <;> simp [opts, EqCmd.text, PyArg.convertible]
    case getMaterial => rcases this with rfl | rfl | rfl <;> simp [opts, EqCmd.text, PyArg.convertible]
    case dimension => subst this; simp [opts, PyArg.convertible]
    case regionList => rcases this with rfl | rfl | rfl <;> simp [opts, EqCmd.text, PyArg.convertible]
    case interfaceList => subst this; simp [opts, PyArg.convertible]
    case contactList => subst this; simp [opts, PyArg.convertible]
  · intro o ho hr
    apply h2
    cases c <;> simp only [opts, EqCmd.text, List.mem_cons, List.not_mem_nil, or_false] at ho
    case setParameter => rcases ho with rfl | rfl | rfl | rfl <;> simp [requiredOf] at hr ⊢
    case getParameter => rcases ho with rfl | rfl | rfl <;> simp [requiredOf] at hr ⊢
    case parameterList => rcases ho with rfl | rfl <;> simp at hr
    case setMaterial => rcases ho with rfl | rfl | rfl | rfl <;> simp [requiredOf] at hr ⊢
    case getMaterial => rcases ho with rfl | rfl | rfl <;> simp [requiredOf] at hr ⊢
    case dimension => subst ho; simp at hr
    case regionList => rcases ho with rfl | rfl | rfl <;> simp [requiredOf] at hr ⊢
    case interfaceList => subst ho; simp [requiredOf]
    case contactList => subst ho; simp [requiredOf]
  · intro o ho k hk'
    refine ⟨PyArg.holder (opts L W c) (kw.reverse ++ []), ?_, hh⟩
    have hin : o.name ∈ (opts L W c).map (·.name) := List.mem_map.mpr ⟨o, ho, rfl⟩
    have isdev : ∀ n, n = "device" → asksDevice c = true → n ∈ (opts L W c).map (·.name) →
        validDevice L W n (PyArg.holder (opts L W c) (kw.reverse ++ [])) = true := by
      rintro n rfl hc hn
      unfold validDevice
      rw [heldg _ hn]
      exact decide_eq_true (hdev hc)
    cases c <;> simp only [opts, EqCmd.text, List.mem_cons, List.not_mem_nil, or_false] at ho
    case setParameter =>
      rcases ho with rfl | rfl | rfl | rfl <;> cases hk'
      · exact nonempty _ hin (hname (.inl rfl))
      · obtain ⟨x, hx, ex⟩ := hm.text "value" hin
        refine nonempty _ hin ?_
        have a := (hh "value" x).mpr hx
        have b := (hh "value" v).mpr (.given v (hm.value rfl))
        rw [a] at b; cases b
        dsimp only
        rw [← ex]; exact hval rfl
    case getParameter =>
      rcases ho with rfl | rfl | rfl <;> cases hk'
      · unfold ifRegion
        rw [heldg _ hin, heldg "region" (by simp [opts, EqCmd.text])]
        exact decide_eq_true (fun x => hreg (.inl rfl) x.2 x.1)
      · exact nonempty _ hin (hname (.inr rfl))
    case parameterList =>
      rcases ho with rfl | rfl <;> cases hk'
      unfold ifRegion
      rw [heldg _ hin, heldg "region" (by simp [opts, EqCmd.text])]
      exact decide_eq_true (fun x => hreg (.inr rfl) x.2 x.1)
    case setMaterial =>
      rcases ho with rfl | rfl | rfl | rfl <;> cases hk'
      · exact isdev _ rfl rfl hin
      · exact nonempty _ hin (hmat rfl)
    case getMaterial => rcases ho with rfl | rfl | rfl <;> cases hk'; exact isdev _ rfl rfl hin
    case dimension => subst ho; cases hk'; exact isdev _ rfl rfl hin
    case regionList => rcases ho with rfl | rfl | rfl <;> cases hk'; exact isdev _ rfl rfl hin
    case interfaceList => subst ho; cases hk'; exact isdev _ rfl rfl hin
    case contactList => subst ho; cases hk'; exact isdev _ rfl rfl hin

end Verif.Mat
