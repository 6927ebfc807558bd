import Verif.SetVals.Props

/-!
# C88, C89: histories, and what a setting does not touch
-/

namespace Verif.SetVals

open Verif.Deps (Kind Dfn Src Denotes DenotesRefs Inv Impl Unique Ref)
open Verif.PyArg (F64)

/-- every call of the history is one the account is about, when it is made -/
def OkAll (count : Kind → Nat) (contact : Kind → String → Option (List Nat)) : Told → List Call → Prop
  | _, [] => True
  | src, c :: cs => Ok src c ∧ ∀ a src', Acct count contact src c a src' → OkAll count contact src' cs

/-- C88: all answers of a history are the ones of the account, whatever was evaluated and cached on the way. -/
theorem story (F : Nat) (names : List String) : ∀ (cs : List Call) (r : Reg) (src : Told), Good F names r.st src →
    OkAll r.count r.contact src cs → (∀ k n d, Call.define k n d ∈ cs → n ∈ names) →
    ∃ src', Story r.count r.contact src cs (run F r cs).2 src' ∧ Good F names (run F r cs).1.st src' ∧ SameShape r (run F r cs).1 := by
  intro cs
  induction cs with
  | nil => intro r src g _ _; exact ⟨src, .nil src, g, rfl, rfl⟩
  | cons c cs ih =>
    intro r src g hok hn
    obtain ⟨src1, ha, g1, h1, h2⟩ := step_acct g c hok.1 (fun k n d h => hn k n d (by rw [h]; simp))
    obtain ⟨src2, hs, g2, h3, h4⟩ := ih (step F r c).1 src1 g1 (by rw [h1, h2]; exact hok.2 _ _ ha)
      (fun k n d h => hn k n d (by simp [h]))
    rw [h1, h2] at hs
    exact ⟨src2, .cons _ _ _ _ _ _ _ ha hs, g2, h3.trans h1, h4.trans h2⟩

/-- a new region -/
def newReg (count : Kind → Nat) (contact : Kind → String → Option (List Nat)) : Reg := ⟨Deps.init zero, count, contact⟩

/-- C88 from the start: in a new region -/
theorem story_new_partial (count : Kind → Nat) (contact : Kind → String → Option (List Nat)) (cs : List Call) (F : Nat)
    (names : List String) (hF : names.length < F) (hok : OkAll count contact (Src.init zero) cs)
    (hn : ∀ k n d, Call.define k n d ∈ cs → n ∈ names) :
    ∃ src', Story count contact (Src.init zero) cs (run F (newReg count contact) cs).2 src' := by
  obtain ⟨src', hs, _⟩ := story F names cs (newReg count contact) (Src.init zero)
    ⟨Deps.inv_init zero, Deps.impl_init zero, by intro m k d h; simp [Src.init] at h, hF⟩ hok hn
  exact ⟨src', hs⟩

/-! ### The account determines the answers -/

theorem told_ext {a b : Told} (h1 : a.defn = b.defn) (h2 : a.data = b.data) (h3 : a.par = b.par) : a = b := by
  cases a; cases b; simp_all

theorem Assigned.det {src a b : Told} {n : String} {v : Arr} (ha : Assigned src n v a) (hb : Assigned src n v b) : a = b := by
  obtain ⟨h1, h2, h3, h4⟩ := ha
  obtain ⟨h5, h6, h7, h8⟩ := hb
  refine told_ext (h1.trans h5.symm) ?_ (h2.trans h6.symm)
  funext m
  by_cases hm : m = n
  · rw [hm, h3, h7]
  · rw [h4 m hm, h8 m hm]

theorem Values.det {src : Told} {len : Nat} {n : String} {l l' : List F64} (h : Values src len n l) (h' : Values src len n l') : l = l' := by
  obtain ⟨v, h1, rfl⟩ := h
  obtain ⟨w, h2, rfl⟩ := h'
  rw [h1.det h2]

theorem Asked.det {src : Told} {len : Nat} {k : Kind} {name init : String} {vals l l' : List F64}
    (h : Asked src len k name init vals l) (h' : Asked src len k name init vals l') : l = l' := by
  cases h with
  | init l hi ht h =>
    cases h' with
    | init l' _ _ h' => exact h.det h'
    | vals hn => exact absurd ⟨hi, ht⟩ hn
  | vals hn =>
    cases h' with
    | init l' hi ht _ => exact absurd ⟨hi, ht⟩ hn
    | vals _ => rfl

theorem Acct.det {count : Kind → Nat} {contact : Kind → String → Option (List Nat)} {src : Told} {c : Call} {a b : Res} {src1 src2 : Told}
    (h1 : Acct count contact src c a src1) (h2 : Acct count contact src c b src2) : a = b ∧ src1 = src2 := by
  cases h1 with
  | set k name init vals l s1 hm hi ha hl hs =>
    cases h2 with
    | set _ _ _ _ l' s2 hm' hi' ha' hl' hs' => rw [ha.det ha'] at hs; exact ⟨rfl, hs.det hs'⟩
    | noModel _ _ _ _ hm' => exact absurd hm hm'
    | noInit _ _ _ _ hm' hi' => exact absurd hi (by rintro (h | h); exacts [hi'.1 h, hi'.2 h])
    | wrongNumber _ _ _ _ l' hm' hi' ha' hl' => rw [ha.det ha'] at hl; exact absurd hl hl'
    | initFails _ _ _ _ hi' ht' h =>
      cases ha with
      | init l _ _ hv => exact absurd hv (h _)
      | vals hn => exact absurd ⟨hi', ht'⟩ hn
  | noModel k name init vals hm =>
    cases h2 with
    | set _ _ _ _ l' s2 hm' => exact absurd hm' hm
    | noModel => exact ⟨rfl, rfl⟩
    | noInit _ _ _ _ hm' => exact absurd hm' hm
    | wrongNumber _ _ _ _ l' hm' => exact absurd hm' hm
    | initFails _ _ _ _ hi' ht' h => exact absurd ⟨_, ht'⟩ hm
  | noInit k name init vals hm hi =>
    cases h2 with
    | set _ _ _ _ l' s2 hm' hi' => exact absurd hi' (by rintro (h | h); exacts [hi.1 h, hi.2 h])
    | noModel _ _ _ _ hm' => exact absurd hm hm'
    | noInit => exact ⟨rfl, rfl⟩
    | wrongNumber _ _ _ _ l' hm' hi' => exact absurd hi' (by rintro (h | h); exacts [hi.1 h, hi.2 h])
    | initFails _ _ _ _ hi' ht' h => exact absurd hi' hi.2
  | wrongNumber k name init vals l hm hi ha hl =>
    cases h2 with
    | set _ _ _ _ l' s2 hm' hi' ha' hl' hs' => rw [ha.det ha'] at hl; exact absurd hl' hl
    | noModel _ _ _ _ hm' => exact absurd hm hm'
    | noInit _ _ _ _ hm' hi' => exact absurd hi (by rintro (h | h); exacts [hi'.1 h, hi'.2 h])
    | wrongNumber => exact ⟨rfl, rfl⟩
    | initFails _ _ _ _ hi' ht' h =>
      cases ha with
      | init l _ _ hv => exact absurd hv (h _)
      | vals hn => exact absurd ⟨hi', ht'⟩ hn
  | initFails k name init vals hi ht h =>
    cases h2 with
    | set _ _ _ _ l' s2 hm' hi' ha' hl' hs' =>
      cases ha' with
      | init l _ _ hv => exact absurd hv (h _)
      | vals hn => exact absurd ⟨hi, ht⟩ hn
    | noModel _ _ _ _ hm' => exact absurd ⟨_, ht⟩ hm'
    | noInit _ _ _ _ hm' hi' => exact absurd hi hi'.2
    | wrongNumber _ _ _ _ l' hm' hi' ha' hl' =>
      cases ha' with
      | init l _ _ hv => exact absurd hv (h _)
      | vals hn => exact absurd ⟨hi, ht⟩ hn
    | initFails => exact ⟨rfl, rfl⟩
  | noNode name index x hm =>
    cases h2 with
    | noNode => exact ⟨rfl, rfl⟩
    | noIndex _ _ _ hm' => exact absurd hm' hm
    | setEverywhere _ _ _ hm' => exact absurd hm' hm
    | setThere _ _ _ _ _ hm' => exact absurd hm' hm
    | setContact _ _ _ _ _ _ hm' => exact absurd hm' hm
    | oneFails _ _ _ hm' => exact absurd hm' hm
  | noIndex name x index hm hi hi' =>
    cases h2 with
    | noNode _ _ _ hm' => exact absurd hm hm'
    | noIndex => exact ⟨rfl, rfl⟩
    | setEverywhere => exact absurd rfl hi'
    | setThere _ _ _ _ _ _ hj => omega
    | setContact _ _ _ _ _ _ _ hj => omega
    | oneFails _ _ _ _ hj => omega
  | setEverywhere name x s1 hm hs =>
    cases h2 with
    | noNode _ _ _ hm' => exact absurd hm hm'
    | noIndex _ _ _ _ _ hi' => exact absurd rfl hi'
    | setEverywhere _ _ _ _ hs' => exact ⟨rfl, hs.det hs'⟩
  | setThere name i x l s1 hm hi hc hv hs =>
    generalize hj : (i : Int) = j at h2
    cases h2 with
    | noNode _ _ _ hm' => exact absurd hm hm'
    | noIndex => omega
    | setEverywhere => omega
    | setThere _ i' _ l' s2 _ _ _ hv' hs' =>
      have : i = i' := by omega
      subst this
      rw [hv.det hv'] at hs; exact ⟨rfl, hs.det hs'⟩
    | setContact _ _ _ _ _ ix _ _ hc' => rw [hc] at hc'; cases hc'
    | oneFails _ _ _ _ _ h => exact absurd hv (h _)
  | setContact name x s1 l i ix hm hi hc hv hs =>
    generalize hj : (i : Int) = j at h2
    cases h2 with
    | noNode _ _ _ hm' => exact absurd hm hm'
    | noIndex => omega
    | setEverywhere => omega
    | setThere _ i' _ l' s2 _ _ hc' => rw [hc] at hc'; cases hc'
    | setContact _ _ _ _ _ ix' _ _ hc' _ hs' => rw [hc] at hc'; cases hc'; exact ⟨rfl, hs.det hs'⟩
    | oneFails _ _ _ _ _ h => exact absurd hv (h _)
  | oneFails name i x hm hi h =>
    generalize hj : (i : Int) = j at h2
    cases h2 with
    | noNode _ _ _ hm' => exact absurd hm hm'
    | noIndex => omega
    | setEverywhere => omega
    | setThere _ i' _ l' s2 _ _ _ hv' => exact absurd hv' (h _)
    | setContact _ _ _ l' _ ix' _ _ _ hv' => exact absurd hv' (h _)
    | oneFails => exact ⟨rfl, rfl⟩
  | unknown w k name hm =>
    cases h2 with
    | unknown => exact ⟨rfl, rfl⟩
    | got _ _ _ hm' => exact absurd hm' hm
    | gotNone _ _ hm' => exact absurd hm' hm
    | printed _ _ _ hm' => exact absurd hm' hm
    | showFails _ _ _ _ hm' => exact absurd hm' hm
    | deleted _ _ _ hm' => exact absurd hm' hm
  | got k name l hm hv hl =>
    cases h2 with
    | unknown _ _ _ hm' => exact absurd hm hm'
    | got _ _ l' _ hv' _ => rw [hv.det hv']; exact ⟨rfl, rfl⟩
    | gotNone _ _ _ hv' => exact absurd (hv.det hv') hl
    | showFails _ _ _ _ _ h => exact absurd hv (h _)
  | gotNone k name hm hv =>
    cases h2 with
    | unknown _ _ _ hm' => exact absurd hm hm'
    | got _ _ l' _ hv' hl => exact absurd (hv'.det hv) hl
    | gotNone => exact ⟨rfl, rfl⟩
    | showFails _ _ _ _ _ h => exact absurd hv (h _)
  | printed k name l hm hv =>
    cases h2 with
    | unknown _ _ _ hm' => exact absurd hm hm'
    | printed _ _ l' _ hv' => rw [hv.det hv']; exact ⟨rfl, rfl⟩
    | showFails _ _ _ _ _ h => exact absurd hv (h _)
  | showFails w k name hw hm h =>
    cases h2 with
    | unknown _ _ _ hm' => exact absurd hm hm'
    | got _ _ l' _ hv' _ => exact absurd hv' (h _)
    | gotNone _ _ _ hv' => exact absurd hv' (h _)
    | printed _ _ l' _ hv' => exact absurd hv' (h _)
    | showFails => exact ⟨rfl, rfl⟩
    | deleted => exact absurd rfl hw
  | deleted k name s1 hm hn ho hd hp =>
    cases h2 with
    | unknown _ _ _ hm' => exact absurd hm hm'
    | showFails _ _ _ hw => exact absurd rfl hw
    | deleted _ _ s2 _ hn' ho' hd' hp' =>
      refine ⟨rfl, told_ext ?_ (hd.trans hd'.symm) (hp.trans hp'.symm)⟩
      funext m
      by_cases hm : m = name
      · rw [hm, hn, hn']
      · rw [ho m hm, ho' m hm]
  | defined k name d s1 hm hn ho hd hd1 hp =>
    cases h2 with
    | defined _ _ _ s2 _ hn' ho' hd' hd1' hp' =>
      refine ⟨rfl, told_ext ?_ ?_ (hp.trans hp'.symm)⟩
      · funext m
        by_cases hm : m = name
        · rw [hm, hn, hn']
        · rw [ho m hm, ho' m hm]
      · funext m
        by_cases hm : m = name
        · rw [hm, hd, hd']
        · rw [hd1 m hm, hd1' m hm]
  | par p v s1 hn hd hv ho =>
    cases h2 with
    | par _ _ s2 hn' hd' hv' ho' =>
      refine ⟨rfl, told_ext (hn.trans hn'.symm) (hd.trans hd'.symm) ?_⟩
      funext m
      by_cases hm : m = p
      · rw [hm, hv, hv']
      · rw [ho m hm, ho' m hm]

/-! ### What is read after a setting -/

/-- C88: what was set is what is read: after values were set in a data model, reading it gives these values. -/
theorem read_what_was_set {count : Kind → Nat} {contact : Kind → String → Option (List Nat)} {src src1 src2 : Told} {k : Kind}
    {name init : String} {vals : List F64} {a : Res} (hd : IsData src k name) (hc : contact k name = none) (hpos : 0 < count k)
    (h : Acct count contact src (.setValues k name init vals) .empty src1) (hg : Acct count contact src1 (.show .get k name) a src2) :
    ∃ l, Asked src (count k) k name init vals l ∧ l.length = count k ∧ a = .list l ∧ src2 = src1 := by
  cases h with
  | set _ _ _ _ l _ hm hi ha hl hs =>
    obtain ⟨h1, h2, h3, h4⟩ := hs
    have hdata : src1.defn name = some (k, .sol) := by rw [h1]; exact hd
    have hv : Values src1 (count k) name l := by
      refine ⟨_, .sol hdata, ?_⟩
      rw [h3, hc]; rfl
    have hne : l ≠ [] := by intro h0; rw [h0] at hl; simp at hl; omega
    have := Acct.det hg (.got k name l ⟨_, hdata⟩ hv hne)
    exact ⟨l, ha, hl, this.1, this.2⟩

/-- `m` is computed from `n` -/
inductive Uses (src : Told) : String → String → Prop
  | direct {m n k refs f} (h : src.defn m = some (k, .expr refs f)) (hr : Ref.model n ∈ refs) : Uses src m n
  | via {m l n k refs f} (h : src.defn m = some (k, .expr refs f)) (hr : Ref.model l ∈ refs) (hu : Uses src l n) : Uses src m n

/-- C89: setting the values of one model changes the values of no other model than those computed from it. -/
theorem set_touches_only_users {src src1 : Told} {n : String} {v : Arr} (h : Assigned src n v src1) {m : String} (hm : m ≠ n)
    (hu : ¬ Uses src m n) (w : Arr) : Denotes zero src m w ↔ Denotes zero src1 m w := by
  obtain ⟨h1, h2, _, h4⟩ := h
  have hx : ∀ m, (m ≠ n ∧ ¬ Uses src m n) → ∀ k refs f, src.defn m = some (k, .expr refs f) → ∀ x, Ref.model x ∈ refs →
      x ≠ n ∧ ¬ Uses src x n := by
    intro m hm k refs f hd x hx
    refine ⟨fun hxn => hm.2 (hxn ▸ .direct hd hx), fun hux => hm.2 (.via hd hx hux)⟩
  constructor
  · intro hd
    refine Deps.denotes_transfer (X := fun m => m ≠ n ∧ ¬ Uses src m n) ?_ hd ⟨hm, hu⟩
    intro m hX
    refine ⟨by rw [h1], fun _ _ => h4 m hX.1, ?_⟩
    intro k refs f hdf r hr
    cases r with
    | par p => dsimp only; rw [h2]
    | model x => exact .inl (hx m hX k refs f hdf x hr)
  · intro hd
    refine Deps.denotes_transfer (X := fun m => m ≠ n ∧ ¬ Uses src m n) ?_ hd ⟨hm, hu⟩
    intro m hX
    refine ⟨by rw [h1], fun _ _ => (h4 m hX.1).symm, ?_⟩
    intro k refs f hdf r hr
    cases r with
    | par p => dsimp only; rw [h2]
    | model x => rw [h1] at hdf; exact .inl (hx m hX k refs f hdf x hr)

/-- C89: a call that gets an error (or an exception) changes nothing that was said: no value of any model changes. -/
theorem refused_changes_nothing {count : Kind → Nat} {contact : Kind → String → Option (List Nat)} {src src1 : Told} {c : Call} {a : Res}
    (h : Acct count contact src c a src1) (ha : a ≠ .empty) : src1 = src := by
  cases h <;> first | rfl | exact absurd rfl ha

end Verif.SetVals
