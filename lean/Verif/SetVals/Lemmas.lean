import Verif.SetVals.Spec

namespace Verif.SetVals

open Verif.Deps (Kind Dfn Src Denotes Inv Impl Unique)
open Verif.PyArg (F64)

abbrev DSt := Deps.St String Arr

/-- the region implements what the user has said, and evaluations may go as deep as there are models -/
structure Good (F : Nat) (names : List String) (s : DSt) (src : Told) : Prop where
  inv : Inv zero s
  impl : Impl zero s src
  cover : ∀ m k d, src.defn m = some (k, d) → m ∈ names
  deep : names.length < F

theorem isSome_iff {F names} {s : DSt} {src} (g : Good F names s src) (k : Kind) (n : String) :
    (s.tab k n).isSome = true ↔ Exists src k n := by
  constructor
  · intro h
    have hk := Deps.findKind_unique g.inv.uniq h
    obtain ⟨M, hM⟩ := Option.isSome_iff_exists.mp h
    exact ⟨M.dfn, by rw [← g.impl.1]; simp [Deps.abs, hk, hM]⟩
  · rintro ⟨d, hd⟩
    rw [← g.impl.1] at hd
    exact Deps.findKind_some (Deps.abs_defn_kind hd).1

theorem tab_dfn {F names} {s : DSt} {src} (g : Good F names s src) {k : Kind} {n : String} {M} (h : s.tab k n = some M) :
    src.defn n = some (k, M.dfn) := by
  have hk := Deps.findKind_unique g.inv.uniq (k := k) (n := n) (by rw [h]; rfl)
  rw [← g.impl.1]; simp [Deps.abs, hk, h]

theorem find_of_exists {F names} {s : DSt} {src} (g : Good F names s src) {k : Kind} {n : String} (h : Exists src k n) :
    ∃ M, Deps.find s n = some M := by
  obtain ⟨d, hd⟩ := h
  rw [← g.impl.1] at hd
  obtain ⟨M, hM, _⟩ := Deps.abs_defn_some hd
  exact ⟨M, hM⟩

theorem good_step {F names} {s : DSt} {src} (g : Good F names s src) (op : Deps.Op String Arr) (ha : src.Allowed op)
    (hc : ∀ m k d, (src.step zero op).defn m = some (k, d) → m ∈ names) :
    Good F names (Deps.step zero F s op) (src.step zero op) := by
  obtain ⟨h1, h2⟩ := Deps.inv_impl_step zero F s src op g.inv g.impl ha
  exact ⟨h1, h2, hc, g.deep⟩

theorem good_read {F names} {s : DSt} {src} (g : Good F names s src) (n : String) : Good F names (Deps.read zero F [] s n).1 src :=
  good_step g (.read n) trivial g.cover

theorem impl_denotes_iff {s : DSt} {src : Told} (h : Impl zero s src) {n v} :
    Denotes zero (Deps.abs s zero) n v ↔ Denotes zero src n v :=
  ⟨fun hd => h.denotes hd, fun hd => Deps.denotes_congr_src h.1 h.2.1 h.2.2 hd⟩

theorem read_iff {F names} {s : DSt} {src} (g : Good F names s src) (n : String) (v : Arr) :
    (Deps.read zero F [] s n).2 = .ok v ↔ Denotes zero src n v := by
  have sound : ∀ w, (Deps.read zero F [] s n).2 = .ok w → Denotes zero src n w := by
    intro w hw
    obtain ⟨h3, h4⟩ := Deps.read_ok zero F [] s n g.inv (by simp)
    have h5 := (h4 w hw).denotes h3.inv
    apply g.impl.denotes
    exact Deps.denotes_congr_src h3.src.1.symm h3.src.2.1.symm
      (fun m k hk => (h3.src.2.2 m k (by rw [← h3.src.1]; exact hk)).symm) h5
  constructor
  · exact sound v
  · intro hd
    have hd' : Denotes zero (Deps.abs s zero) n v := (impl_denotes_iff g.impl).mpr hd
    have hok : ∃ w, (Deps.read zero F [] s n).2 = .ok w := by
      cases hf : Deps.find s n with
      | none =>
        have := g.deep
        cases F with
        | zero => omega
        | succ k => exact ⟨zero, by simp [Deps.read, hf]⟩
      | some M =>
        apply Deps.read_complete zero names F [] s n g.inv _ (by rw [hf]; simp) (by simp) List.nodup_nil (by simp)
          (by simpa using g.deep) ⟨v, hd'⟩ (by intro p hp; simp at hp)
        intro m hm
        obtain ⟨M', hM'⟩ := Option.ne_none_iff_exists'.mp hm
        obtain ⟨k, hk⟩ := Deps.abs_defn (zero := zero) hM'
        rw [g.impl.1] at hk
        exact g.cover m k _ hk
    obtain ⟨w, hw⟩ := hok
    rw [hw, (sound w hw).det hd]

/-- what a read gives -/
theorem readVals_spec {F names} {r : Reg} {src} (g : Good F names r.st src) (k : Kind) (n : String) :
    Good F names (readVals F r k n).1.st src ∧ (readVals F r k n).1.count = r.count ∧ (readVals F r k n).1.contact = r.contact ∧
    (∀ l, (readVals F r k n).2 = some l ↔ Values src (r.count k) n l) := by
  have gr := good_read g n
  have hi := read_iff g n
  unfold readVals
  cases h : Deps.read zero F [] r.st n with
  | mk s' res =>
    rw [h] at gr hi
    cases res with
    | ok v =>
      refine ⟨gr, rfl, rfl, fun l => ?_⟩
      dsimp only
      constructor
      · intro hl; cases hl; exact ⟨v, (hi v).mp rfl, rfl⟩
      · rintro ⟨w, hw, rfl⟩
        rw [((hi v).mp rfl).det hw]
    | cyclic =>
      refine ⟨gr, rfl, rfl, fun l => ?_⟩
      dsimp only
      refine ⟨fun hl => by simp at hl, ?_⟩
      rintro ⟨w, hw, _⟩
      have := (hi w).mpr hw
      simp at this
    | fuel =>
      refine ⟨gr, rfl, rfl, fun l => ?_⟩
      dsimp only
      refine ⟨fun hl => by simp at hl, ?_⟩
      rintro ⟨w, hw, _⟩
      have := (hi w).mpr hw
      simp at this

/-- putting values in a data model -/
theorem good_assign {F names} {s : DSt} {src} (g : Good F names s src) {k : Kind} {n : String} (hm : Exists src k n)
    (hd : ∀ k d, src.defn n = some (k, d) → d = .sol) (v : Arr) :
    ∃ src', Assigned src n v src' ∧ Good F names (Deps.setValues s n v) src' := by
  obtain ⟨M, hf⟩ := find_of_exists g hm
  obtain ⟨d, hk⟩ := hm
  have e : Deps.step zero F s (.setValues n v) = Deps.setValues s n v := by simp [Deps.step, hf]
  have es : src.step zero (.setValues n v) = { src with data := fun m => if m = n then v else src.data m } := by
    simp [Src.step, hk]
  refine ⟨{ src with data := fun m => if m = n then v else src.data m }, ⟨rfl, rfl, by simp, fun m hm => by simp [hm]⟩, ?_⟩
  have := good_step g (.setValues n v) hd (by rw [es]; exact g.cover)
  rw [e, es] at this
  exact this

theorem storeList_eq (r : Reg) (k : Kind) (n : String) (l : List F64) :
    storeList r k n l = { r with st := Deps.setValues r.st n (placed (r.count k) (r.contact k n) l) } := by
  unfold storeList placed masked
  cases r.contact k n <;> rfl

theorem storeAll_eq (r : Reg) (k : Kind) (n : String) (x : F64) :
    storeAll r k n x = { r with st := Deps.setValues r.st n (placedAll (r.count k) (r.contact k n) x) } := by
  unfold storeAll placedAll masked
  cases r.contact k n <;> rfl

end Verif.SetVals
