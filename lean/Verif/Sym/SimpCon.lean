import Verif.Sym.SimpWF

/-!
# Simplification of constants
-/

namespace Verif.Sym

variable {K : Type} {C : Cfg K}

/-- A sum of literals. -/
inductive Lit : Expr K → Prop
  | con (c) : Lit (.con c)
  | add {vs} : (∀ v ∈ vs, Lit v) → Lit (.add vs)

theorem Lit.g {ρ : Env} {e : Expr K} (h : Lit e) : G C ρ e := by
  induction h with
  | con => exact .con _
  | add _ ih => exact .add (by simp) ih

/-- All elements are constants. -/
def AllCon (l : List (Expr K)) : Prop := ∀ v ∈ l, ∃ c, v = .con c

theorem ty_con {v : Expr K} : v.ty = 0 ↔ ∃ c, v = .con c := by
  cases v <;> simp [Expr.ty]

theorem groupTy_allCon {l : List (Expr K)} (h : AllCon l) (hne : l ≠ []) :
    ∃ c r, AllCon r ∧ groupTy l = [(.con c, r)] := by
  match l, hne with
  | v :: vs, _ =>
    obtain ⟨c, rfl⟩ := h v (by simp)
    have hvs : AllCon vs := fun w hw => h w (by simp [hw])
    have ht : ∀ w ∈ vs, w.ty = 0 := fun w hw => ty_con.2 (hvs w hw)
    refine ⟨c, vs, hvs, ?_⟩
    rw [groupTy]
    have e1 : (vs.filter fun w => w.ty == (Expr.con c).ty) = vs := by
      rw [List.filter_eq_self]
      intro w hw; rw [ht w hw]; rfl
    have e2 : (vs.filter fun w => w.ty != (Expr.con c).ty) = [] := by
      rw [List.filter_eq_nil_iff]
      intro w hw; rw [ht w hw]; simp [Expr.ty]
    rw [e1, e2, groupTy]

theorem srt_singleton (C : Cfg K) (v : Expr K) : C.srt [v] = [v] :=
  List.perm_singleton.1 (C.srt_perm [v])

theorem simp_con {n : Nat} {c : K} {e' : Expr K} (h : simp C n (.con c) = some e') : e' = .con c := by
  cases n with
  | zero => simp [simp] at h
  | succ n => simp only [simp, Option.some.injEq] at h; exact h.symm

theorem mapO_allCon {n : Nat} {l l' : List (Expr K)} (h : AllCon l) (hm : mapO (simp C n) l = some l') :
    AllCon l' := by
  intro v hv
  obtain ⟨a, ha, hav⟩ := mapO_mem hm v hv
  obtain ⟨c, rfl⟩ := h a ha
  exact ⟨c, simp_con hav⟩

theorem grouped_allCon {l : List (Expr K)} (h : AllCon l) (hne : l ≠ []) :
    ∃ c, grouped C l = [.con c] := by
  have e : l.map (toPow C) = l := by
    conv_rhs => rw [← List.map_id l]
    refine List.map_congr_left fun v hv => ?_
    obtain ⟨c, rfl⟩ := h v hv
    rfl
  obtain ⟨c, r, hr, hg⟩ := groupTy_allCon h hne
  unfold grouped
  rw [e, hg]
  simp only [List.map_cons, List.map_nil, List.flatMap_cons, List.flatMap_nil, List.append_nil]
  split
  · exact ⟨c, rfl⟩
  · exact ⟨_, rfl⟩

theorem prodVec_allCon {n : Nat} {l t : List (Expr K)} (h : AllCon l) (hne : l ≠ [])
    (ht : prodVec C (simp C n) l = some t) : ∃ c, t = [.con c] := by
  obtain ⟨c, hc⟩ := grouped_allCon (C := C) h hne
  rw [prodVec_eq, hc, Option.map_eq_some_iff] at ht
  obtain ⟨t', h1, rfl⟩ := ht
  by_cases hone : isOne C (.con c) = true
  · have : ([Expr.con c].filter fun v => !isOne C v) = [] := by simp [hone]
    rw [this] at h1
    simp only [mapO, Option.some.injEq] at h1
    subst h1
    simp only [List.isEmpty_nil, List.any_cons, hone, List.any_nil, Bool.or_false, Bool.and_self, if_true]
    exact ⟨_, rfl⟩
  · have : ([Expr.con c].filter fun v => !isOne C v) = [.con c] := by simp [hone]
    rw [this] at h1
    have hl := mapO_length h1
    match t', hl with
    | [v], _ =>
      obtain ⟨a, ha, hav⟩ := mapO_mem h1 v (by simp)
      rw [List.mem_singleton.1 ha] at hav
      rw [simp_con hav]
      simp

theorem reduce_allCon {n : Nat} : ∀ (k : Nat) {l t : List (Expr K)}, AllCon l → l ≠ [] →
    reduce C (simp C n) k l = some t → ∃ c, t = [.con c]
  | 0, _, _, _, _, h => by simp [reduce] at h
  | k + 1, l, t, hl, hne, h => by
    simp only [reduce] at h
    split at h
    · rename_i t' ht'
      obtain ⟨c, rfl⟩ := prodVec_allCon hl hne ht'
      split at h
      · exact reduce_allCon k (fun v hv => ⟨c, List.mem_singleton.1 hv⟩) (by simp) h
      · cases h; exact ⟨c, rfl⟩
    · cases h

theorem prodSimp_allCon {n : Nat} {l : List (Expr K)} {e' : Expr K} (hl : AllCon l) (hne : l ≠ [])
    (h : prodSimp C (simp C n) l = some e') : ∃ c, e' = .con c := by
  rcases prodSimp_cases h with ⟨_, rfl⟩ | ⟨v, rfl, h'⟩ | ⟨t0, tv, h0, h1, h⟩
  · exact ⟨_, rfl⟩
  · obtain ⟨c, rfl⟩ := hl v (by simp)
    exact ⟨c, simp_con h'⟩
  · have c0 := mapO_allCon hl h0
    have n0 : t0 ≠ [] := by
      rintro rfl; have := mapO_length h0
      exact hne (List.length_eq_zero_iff.1 this.symm)
    obtain ⟨c, rfl⟩ := prodVec_allCon c0 n0 h1
    rcases h with rfl | ⟨hlt, t, ht, rfl⟩ | ⟨k, t, ht, rfl⟩
    · exact ⟨c, rfl⟩
    · simp at hlt
    · have : [Expr.con c].flatMap (thirdItem C) = [.con c] := by simp [thirdItem, clone]
      rw [this] at ht
      obtain ⟨d, rfl⟩ := reduce_allCon k (fun v hv => ⟨c, List.mem_singleton.1 hv⟩) (by simp) ht
      exact ⟨d, rfl⟩

theorem mul_con (C : Cfg K) (a b : K) : (∃ c, mul C (.con a) (.con b) = .con c) ∨
    mul C (.con a) (.con b) = .prod [.con a, .con b] := by
  unfold mul
  split
  · exact .inl ⟨_, rfl⟩
  · split
    · exact .inl ⟨_, rfl⟩
    · split
      · exact .inl ⟨_, rfl⟩
      · exact .inr rfl

/-- The product of two constants simplifies to a constant. -/
theorem simp_mul_con {n : Nat} {a b : K} {e' : Expr K}
    (h : simp C n (mul C (.con a) (.con b)) = some e') : ∃ c, e' = .con c := by
  rcases mul_con C a b with ⟨c, hc⟩ | hm
  · rw [hc] at h; exact ⟨c, simp_con h⟩
  · rw [hm] at h
    cases n with
    | zero => simp [simp] at h
    | succ n =>
      simp only [simp] at h
      refine prodSimp_allCon ?_ (by simp) h
      intro v hv
      simp only [List.mem_cons, List.not_mem_nil, or_false] at hv
      rcases hv with rfl | rfl <;> exact ⟨_, rfl⟩

theorem like_con {n : Nat} {c : K} {l : List (Expr K)} (h : like C (simp C n) [.con c] = some l) :
    ∃ d, l = [.con d] := by
  rw [like, List.filter_nil, List.filter_nil, like] at h
  split at h
  · cases h
  · rename_i fact hf
    have hfc : ∃ d, fact = .con d := by
      have e : mkAdd C (scale C (.con c) :: ([] : List (Expr K)).map (scale C)) = .add [.con c] := by
        rw [mkAdd, List.map_nil, scale, srt_singleton]
      rw [e] at hf
      cases n with
      | zero => simp [simp] at hf
      | succ n =>
        simp only [simp, addSimp] at hf
        exact ⟨c, simp_con hf⟩
    obtain ⟨d, rfl⟩ := hfc
    split at h
    · rename_i v vs hv hvs
      cases h
      cases hvs
      split at hv
      · cases hv; exact ⟨_, rfl⟩
      · rw [unscaled, conI] at hv
        obtain ⟨d', rfl⟩ := simp_mul_con hv
        exact ⟨d', rfl⟩
    · cases h

/-- A sum of literals simplifies to a constant. -/
theorem simp_lit : ∀ (n : Nat) {e e' : Expr K}, Lit e → simp C n e = some e' → ∃ c, e' = .con c
  | 0, _, _, _, h => by simp [simp] at h
  | n + 1, _, e', .con c, h => ⟨c, simp_con h⟩
  | n + 1, _, e', .add (vs := vs) hv, h => by
    simp only [simp] at h
    rcases addSimp_cases h with ⟨v, rfl, h'⟩ | ⟨t0, t3, l, h0, h3, hl, h⟩
    · exact simp_lit n (hv v (by simp)) h'
    · have c0 : AllCon t0 := by
        intro v hv'
        obtain ⟨a, ha, hav⟩ := mapO_mem h0 v hv'
        exact simp_lit n (hv a ha) hav
      have hone : ∀ {l l' : List (Expr K)} {c : K}, l = [.con c] → mapO (simp C n) l = some l' →
          l' = [.con c] := by
        rintro _ l' c rfl hm
        have hlen := mapO_length hm
        match l', hlen with
        | [v], _ =>
          obtain ⟨a, ha, hav⟩ := mapO_mem hm v (by simp)
          rw [List.mem_singleton.1 ha] at hav
          rw [simp_con hav]
      by_cases hne : t0 = []
      · subst hne
        rw [groupTy] at h3
        simp only [List.map_nil, List.flatMap_nil, mapO, Option.some.injEq] at h3
        subst h3
        rw [List.filter_nil, like] at hl
        cases hl
        rcases h with ⟨_, rfl⟩ | h | ⟨h, _⟩
        · exact ⟨_, rfl⟩
        · cases h
        · simp at h
      · obtain ⟨c, r, hr, hg⟩ := groupTy_allCon c0 hne
        have h3' : ∃ d, t3 = [.con d] := by
          rw [hg] at h3
          simp only [List.map_cons, List.map_nil, List.flatMap_cons, List.flatMap_nil,
            List.append_nil] at h3
          split at h3
          · exact ⟨_, hone rfl h3⟩
          · exact ⟨_, hone rfl h3⟩
        obtain ⟨d, rfl⟩ := h3'
        by_cases hz : isZero C (.con d) = true
        · have : ([Expr.con d].filter fun v => !isZero C v) = [] := by simp [hz]
          rw [this, like] at hl
          cases hl
          rcases h with ⟨_, rfl⟩ | h | ⟨h, _⟩
          · exact ⟨_, rfl⟩
          · cases h
          · simp at h
        · have : ([Expr.con d].filter fun v => !isZero C v) = [.con d] := by simp [hz]
          rw [this] at hl
          obtain ⟨d', rfl⟩ := like_con hl
          rcases h with ⟨h, _⟩ | h | ⟨h, _⟩
          · cases h
          · cases h; exact ⟨d', rfl⟩
          · simp at h

end Verif.Sym
