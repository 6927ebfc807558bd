import Verif.Eval.Spec

/-! # Sums and products of model data -/

namespace Verif.Eval

open Verif.ScalarData Verif.Sym

theorem adm_mval (R : Reg) (k : Kind) (i : Nat) : Adm R (mval R k i) := by
  intro s h; simp [mval, h]

theorem denote_lookup_lt {R : Reg} (hR : R.Wf) {k k' : Kind} {i j : Nat} (hi : i < (R.env k').n) (h : loc R k k' i = some j) :
    j < (R.env k).n := by
  cases k <;> cases k' <;> simp only [loc, Option.some.injEq, reduceCtorEq] at h <;> subst h
  · exact hi
  · exact hi
  · exact hR.triEdge i (hR.ntri ▸ hi)
  · exact hR.tetEdge i (hR.ntet ▸ hi)
  · exact hi
  · exact hi

theorem mapM_spec {α β : Type} {f : α → Option β} : ∀ {l : List α} {out : List β}, l.mapM f = some out →
    out.length = l.length ∧ ∀ i : Nat, out[i]? = l[i]?.bind f
  | [], out, h => by
    simp only [List.mapM_nil, Option.pure_def, Option.some.injEq] at h
    subst h; simp
  | a :: l, out, h => by
    simp only [List.mapM_cons, Option.pure_def, Option.bind_eq_bind, Option.bind_eq_some_iff, Option.some.injEq] at h
    obtain ⟨b, hb, bs, hbs, rfl⟩ := h
    obtain ⟨h1, h2⟩ := mapM_spec hbs
    refine ⟨by simp [h1], fun i => ?_⟩
    cases i with
    | zero => simp [hb]
    | succ i => simpa using h2 i

theorem mapM_some_of_forall {α β : Type} {f : α → Option β} : ∀ {l : List α}, (∀ a ∈ l, (f a).isSome = true) →
    ∃ out, l.mapM f = some out
  | [], _ => ⟨[], by simp⟩
  | a :: l, h => by
    obtain ⟨b, hb⟩ := Option.isSome_iff_exists.1 (h a (by simp))
    obtain ⟨bs, hbs⟩ := mapM_some_of_forall (l := l) fun x hx => h x (by simp [hx])
    exact ⟨b :: bs, by simp [List.mapM_cons, hb, hbs]⟩

theorem spread_spec {m : Nat} {f : Nat → Nat} {l out : List ℝ} (h : spread m f l = some out) :
    out.length = m ∧ ∀ i : Nat, i < m → out[i]? = l[f i]? := by
  unfold spread at h
  obtain ⟨h1, h2⟩ := mapM_spec h
  refine ⟨by simpa using h1, fun i hi => ?_⟩
  rw [h2 i]; simp [hi]

theorem ofVector_spec (env : ScalarData.Env ℝ) (v : List ℝ) (h : v.length = env.n) :
    (ofVector v).Wf env ∧ denote env (ofVector v) = v := by
  simp [ofVector, SD.Wf, denote, getScalarList, h]

section
variable {R : Reg} (hR : R.Wf) {cx : Ctx} {g h : (Str → ℝ) → ℝ}
include hR

theorem toTri_denotes {v v' : Val} (hv : Denotes R cx g v) (ht : has R .tri) (he : toTri R v = some v') : Denotes R cx g v' := by
  unfold toTri at he
  split at he
  · rename_i s
    obtain ⟨hw, -, -, -, hp⟩ := hv
    split at he
    · rename_i hu
      cases he
      obtain ⟨h1, h2⟩ := ofScalar_spec (R.env .tri) s.uval (3 * R.ntri) hR.ntri.symm
      refine ⟨h1, fun _ => ht, fun h => by simp at h, fun h => by simp at h, fun k' i j hc hi hl => ?_⟩
      cases k' <;> simp only [loc, Option.some.injEq, reduceCtorEq] at hl
      subst hl
      rw [h2]
      have h3 := hp .tri i _ hc hi rfl
      have h4 := denote_lookup_lt hR (k := .edge) hi rfl
      simp only [denote, getScalarList, hu, if_true, hw.1] at h3
      rw [List.getElem?_replicate, if_pos h4] at h3
      rw [List.getElem?_replicate, if_pos hi, h3]
    · simp only [Option.bind_eq_bind, Option.bind_eq_some_iff] at he
      obtain ⟨out, ho, he⟩ := he
      obtain ⟨h1, h2⟩ := spread_spec ho
      split at he
      · rename_i hem
        cases he
        refine ⟨hw, fun h => by simp at h, fun h => by simp at h, ?_, hp⟩
        intro _ _ _
        simpa using ‹¬ s.isuniform = true›
      · cases he
        obtain ⟨h3, h4⟩ := ofVector_spec (R.env .tri) out (by rw [h1, hR.ntri])
        refine ⟨h3, fun _ => ht, fun h => by simp at h, fun h => by simp at h, fun k' i j hc hi hl => ?_⟩
        cases k' <;> simp only [loc, Option.some.injEq, reduceCtorEq] at hl
        subst hl
        rw [h4, h2 i (hR.ntri ▸ hi)]
        exact hp .tri i _ hc hi rfl
  · cases he; exact hv

theorem toTet_denotes {v v' : Val} (hv : Denotes R cx g v) (ht : has R .tet) (he : toTet R v = some v') : Denotes R cx g v' := by
  unfold toTet at he
  split at he
  · rename_i s
    obtain ⟨hw, -, -, hnu, hp⟩ := hv
    split at he
    · rename_i hu
      cases he
      have hn : R.ntri = R.ntet := by
        by_contra hne
        rw [hnu rfl ht hne] at hu
        simp at hu
      obtain ⟨h1, h2⟩ := ofScalar_spec (R.env .tet) s.uval (6 * R.ntri) (by rw [hn, hR.ntet])
      refine ⟨h1, fun h => by simp at h, fun _ => ht, fun h => by simp at h, fun k' i j hc hi hl => ?_⟩
      cases k' <;> simp only [loc, Option.some.injEq, reduceCtorEq] at hl
      subst hl
      rw [h2]
      have h3 := hp .tet i _ hc hi rfl
      have h4 := denote_lookup_lt hR (k := .edge) hi rfl
      simp only [denote, getScalarList, hu, if_true, hw.1] at h3
      rw [List.getElem?_replicate, if_pos h4] at h3
      rw [List.getElem?_replicate, if_pos hi, h3]
    · simp only [Option.bind_eq_bind, Option.bind_eq_some_iff] at he
      obtain ⟨out, ho, he⟩ := he
      obtain ⟨h1, h2⟩ := spread_spec ho
      split at he
      · rename_i hem
        cases he
        refine ⟨hw, fun h => by simp at h, fun h => by simp at h, ?_, hp⟩
        intro _ _ _
        simpa using ‹¬ s.isuniform = true›
      · cases he
        obtain ⟨h3, h4⟩ := ofVector_spec (R.env .tet) out (by rw [h1, hR.ntet])
        refine ⟨h3, fun h => by simp at h, fun _ => ht, fun h => by simp at h, fun k' i j hc hi hl => ?_⟩
        cases k' <;> simp only [loc, Option.some.injEq, reduceCtorEq] at hl
        subst hl
        rw [h4, h2 i (hR.ntet ▸ hi)]
        exact hp .tet i _ hc hi rfl
  · cases he; exact hv

theorem opEqualData_denotes {op : ℝ → ℝ → ℝ} {k : Kind} {s s' r : SD ℝ} (hs : Denotes R cx g (.data k s))
    (hs' : Denotes R cx h (.data k s')) (he : opEqualData (R.env k) op s s' = some r) :
    Denotes R cx (fun m => op (g m) (h m)) (.data k r) := by
  obtain ⟨r', e1, hw, hd⟩ := opEqualData_spec (R.env k) (hR.env k) op s s' hs.1 hs'.1
  rw [e1] at he
  cases he
  refine ⟨hw, hs.2.1, hs.2.2.1, fun hk ht hn => ?_, fun k' i j hc hi hl => ?_⟩
  · have u1 := hs.2.2.2.1 hk ht hn
    have u2 := hs'.2.2.2.1 hk ht hn
    simp only [opEqualData, u1, u2, Bool.and_self, Bool.false_eq_true, if_false] at e1
    split at e1
    · cases e1
      exact (makeAssignable_spec _ (hR.env k) s hs.1).2.2.1
    · cases e1
  · rw [hd, List.getElem?_zipWith, hs.2.2.2.2 k' i j hc hi hl, hs'.2.2.2.2 k' i j hc hi hl]

theorem opArr_denotes {op : ℝ → ℝ → ℝ} {k : Kind} {a b r : Val} (ha : Denotes R cx g a) (hb : Denotes R cx h b)
    (he : opArr R op k a b = some r) : Denotes R cx (fun m => op (g m) (h m)) r := by
  unfold opArr at he
  split at he
  · split at he
    · rename_i hk
      obtain ⟨rfl, rfl⟩ := hk
      rw [Option.map_eq_some_iff] at he
      obtain ⟨r', h1, rfl⟩ := he
      exact opEqualData_denotes hR ha hb h1
    · cases he
  · cases he

theorem opEqualScalar_denotes {op : ℝ → ℝ → ℝ} {k : Kind} {s : SD ℝ} {y : ℝ} (hs : Denotes R cx g (.data k s))
    (hy : Denotes R cx h (.double y)) :
    Denotes R cx (fun m => op (g m) (h m)) (.data k (opEqualScalar (R.env k) op s y)) := by
  obtain ⟨hw, hd⟩ := opEqualScalar_spec (R.env k) (hR.env k) op s hs.1 y
  refine ⟨hw, hs.2.1, hs.2.2.1, fun hk ht hn => ?_, fun k' i j hc hi hl => ?_⟩
  · have u1 := hs.2.2.2.1 hk ht hn
    simp only [opEqualScalar, u1, Bool.false_eq_true, if_false]
    exact (makeAssignable_spec _ (hR.env k) s hs.1).2.2.1
  · rw [hd, List.getElem?_map, hs.2.2.2.2 k' i j hc hi hl, ← hy _ (adm_mval R k' i)]
    rfl

theorem double_op_denotes {op : ℝ → ℝ → ℝ} {k : Kind} {s r : SD ℝ} {x : ℝ} (hx : Denotes R cx g (.double x))
    (hs : Denotes R cx h (.data k s)) (he : opEqualData (R.env k) op (ofScalar x s.length) s = some r) :
    Denotes R cx (fun m => op (g m) (h m)) (.data k r) := by
  obtain ⟨w1, d1⟩ := ofScalar_spec (R.env k) x s.length hs.1.1
  obtain ⟨r', e1, hw, hd⟩ := opEqualData_spec (R.env k) (hR.env k) op _ s w1 hs.1
  rw [e1] at he
  cases he
  refine ⟨hw, hs.2.1, hs.2.2.1, fun hk ht hn => ?_, fun k' i j hc hi hl => ?_⟩
  · have u2 := hs.2.2.2.1 hk ht hn
    simp only [opEqualData, u2, Bool.and_false, Bool.false_eq_true, if_false] at e1
    split at e1
    · cases e1
      exact (makeAssignable_spec _ (hR.env k) _ w1).2.2.1
    · cases e1
  · rw [hd, List.getElem?_zipWith, hs.2.2.2.2 k' i j hc hi hl, d1, List.getElem?_replicate,
      if_pos (denote_lookup_lt hR hi hl), ← hx _ (adm_mval R k' i)]

/-- `a += b` and `a *= b` on model data compute the sum and the product at every point, or make the result invalid. -/
theorem opEqual_denotes {op : ℝ → ℝ → ℝ} {a b r : Val} (ha : Denotes R cx g a) (hb : Denotes R cx h b)
    (he : opEqual R op a b = some r) : Denotes R cx (fun m => op (g m) (h m)) r := by
  unfold opEqual at he
  split at he
  · cases he; trivial
  · cases he
    intro m hm
    simp only [ha m hm, hb m hm]
  · rw [Option.map_eq_some_iff] at he
    obtain ⟨r', h1, rfl⟩ := he
    exact double_op_denotes hR ha hb h1
  · cases he; trivial
  · cases he; exact opEqualScalar_denotes hR ha hb
  · cases he; trivial
  · rw [Option.bind_eq_some_iff] at he
    obtain ⟨a', h1, h2⟩ := he
    exact opArr_denotes hR (toTri_denotes hR ha (hb.2.1 rfl) h1) hb h2
  · rw [Option.bind_eq_some_iff] at he
    obtain ⟨a', h1, h2⟩ := he
    exact opArr_denotes hR (toTet_denotes hR ha (hb.2.2.1 rfl) h1) hb h2
  · rw [Option.bind_eq_some_iff] at he
    obtain ⟨a', h1, h2⟩ := he
    exact opArr_denotes hR ha (toTri_denotes hR hb (ha.2.1 rfl) h1) h2
  · rw [Option.bind_eq_some_iff] at he
    obtain ⟨a', h1, h2⟩ := he
    exact opArr_denotes hR ha (toTet_denotes hR hb (ha.2.2.1 rfl) h1) h2
  · split at he
    · rename_i hk
      subst hk
      rw [Option.map_eq_some_iff] at he
      obtain ⟨r', h1, rfl⟩ := he
      exact opEqualData_denotes hR ha hb h1
    · cases he; trivial

end

end Verif.Eval
