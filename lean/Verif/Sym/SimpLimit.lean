import Verif.Sym.SimpCon
import Mathlib.Order.Filter.AtTopBot.Basic

/-!
# Simplification returns: the call without a bound on the depth

`simp C n` gives up when the recursion is deeper than `n`. `lim C` is the result for all large `n`.
-/

namespace Verif.Sym

open Filter

variable {K : Type} {C : Cfg K}

open Classical in
/-- The result of `Simplify` with unlimited recursion, if it returns. -/
noncomputable def lim (C : Cfg K) (e : Expr K) : Option (Expr K) :=
  if h : ∃ e', ∀ᶠ n in atTop, simp C n e = some e' then some h.choose else none

theorem lim_iff {e e' : Expr K} : lim C e = some e' ↔ ∀ᶠ n in atTop, simp C n e = some e' := by
  unfold lim
  constructor
  · intro h
    split at h
    · rename_i hx
      have := hx.choose_spec
      cases h
      exact this
    · cases h
  · intro h
    have hx : ∃ e', ∀ᶠ n in atTop, simp C n e = some e' := ⟨e', h⟩
    rw [dif_pos hx]
    obtain ⟨n, h1, h2⟩ := (h.and hx.choose_spec).exists
    rw [h1] at h2
    exact h2.symm

/-- One more call. -/
theorem lim_succ {e e' : Expr K} (h : ∀ᶠ n in atTop, simp C (n + 1) e = some e') :
    lim C e = some e' := by
  rw [lim_iff]
  obtain ⟨N, hN⟩ := eventually_atTop.1 h
  refine eventually_atTop.2 ⟨N + 1, fun n hn => ?_⟩
  obtain ⟨k, rfl⟩ : ∃ k, n = k + 1 := ⟨n - 1, by omega⟩
  exact hN k (by omega)

/-! ### Continuity -/

section
variable {F : Expr K → Option (Expr K)} {fs : Nat → Expr K → Option (Expr K)}
  (H : ∀ e e', F e = some e' → ∀ᶠ n in atTop, fs n e = some e')
include H

theorem mapO_ev : ∀ {l l' : List (Expr K)}, mapO F l = some l' →
    ∀ᶠ n in atTop, mapO (fs n) l = some l'
  | [], l', h => by simp only [mapO, Option.some.injEq] at h ⊢; simp [h]
  | a :: l, l', h => by
    simp only [mapO] at h
    split at h
    · rename_i b bs hb hbs
      cases h
      filter_upwards [H _ _ hb, mapO_ev hbs] with n h1 h2
      simp only [mapO, h1, h2]
    · cases h

theorem prodVec_ev {l t : List (Expr K)} (h : prodVec C F l = some t) :
    ∀ᶠ n in atTop, prodVec C (fs n) l = some t := by
  rw [prodVec_eq, Option.map_eq_some_iff] at h
  obtain ⟨t', h1, rfl⟩ := h
  filter_upwards [mapO_ev H h1] with n h1
  rw [prodVec_eq, h1, Option.map_some]

theorem reduce_ev : ∀ (k : Nat) {l t : List (Expr K)}, reduce C F k l = some t →
    ∀ᶠ n in atTop, reduce C (fs n) k l = some t
  | 0, _, _, h => by simp [reduce] at h
  | k + 1, l, t, h => by
    simp only [reduce] at h
    split at h
    · rename_i t' ht'
      split at h
      · rename_i hlt
        filter_upwards [prodVec_ev H ht', reduce_ev k h] with n h1 h2
        simp only [reduce, h1, if_pos hlt, h2]
      · rename_i hlt
        filter_upwards [prodVec_ev H ht'] with n h1
        simp only [reduce, h1]
        rw [if_neg hlt, h]
    · cases h

theorem prodSimp_ev {vs : List (Expr K)} {e' : Expr K} (h : prodSimp C F vs = some e') :
    ∀ᶠ n in atTop, prodSimp C (fs n) vs = some e' := by
  unfold prodSimp at h ⊢
  split at h
  · rename_i hz
    simp only [if_pos hz]
    exact Eventually.of_forall fun _ => h
  · rename_i hz
    simp only [if_neg hz]
    split at h
    · exact H _ _ h
    · split at h
      · cases h
      · rename_i t0 h0
        split at h
        · cases h
        · rename_i tv hv
          split at h
          · cases h
          · rename_i out hout
            rw [Option.map_eq_some_iff] at h
            obtain ⟨t, ht, rfl⟩ := h
            have hout' : ∀ᶠ n in atTop, (if 1 < tv.length then
                (prodVec C (fs n) (C.srt (tv.map (asPow C)))).map fun t =>
                  shorter C (single C tv) (single C t)
              else some (single C tv)) = some out := by
              split at hout
              · rename_i hl
                rw [Option.map_eq_some_iff] at hout
                obtain ⟨t2, ht2, rfl⟩ := hout
                filter_upwards [prodVec_ev H ht2] with n h1
                rw [if_pos hl, h1, Option.map_some]
              · rename_i hl
                exact Eventually.of_forall fun n => by rw [if_neg hl, hout]
            filter_upwards [mapO_ev H h0, prodVec_ev H hv, hout', reduce_ev H _ ht] with n h1 h2 h3 h4
            simp only [h1, h2, h3, h4, Option.map_some]

theorem like_ev (l : List (Expr K)) : ∀ {t : List (Expr K)}, like C F l = some t →
    ∀ᶠ n in atTop, like C (fs n) l = some t := by
  induction l using filter_ind (p := fun v u => str C (unscaled C v) != str C (unscaled C u)) with
  | h0 => intro t h; rw [like] at h; cases h; simp [like]
  | h1 v r ih =>
    intro t h
    rw [like] at h
    split at h
    · cases h
    · rename_i fact hfact
      split at h
      · rename_i x vs hx hvs
        cases h
        have hx' : ∀ᶠ n in atTop, (if isOne C fact then some (unscaled C v)
            else fs n (mul C fact (unscaled C v))) = some x := by
          split at hx
          · rename_i ho
            exact Eventually.of_forall fun n => by rw [if_pos ho, hx]
          · rename_i ho
            filter_upwards [H _ _ hx] with n h1
            rw [if_neg ho, h1]
        filter_upwards [H _ _ hfact, hx', ih hvs] with n h1 h2 h3
        rw [like]
        simp only [h1, h2, h3]
      · cases h

theorem addSimp_ev {vs : List (Expr K)} {e' : Expr K} (h : addSimp C F vs = some e') :
    ∀ᶠ n in atTop, addSimp C (fs n) vs = some e' := by
  unfold addSimp at h ⊢
  split at h
  · exact H _ _ h
  · split at h
    · cases h
    · rename_i t0 h0
      dsimp only at h
      split at h
      · cases h
      · rename_i t3 h3
        rw [Option.map_eq_some_iff] at h
        obtain ⟨l, hl, h⟩ := h
        filter_upwards [mapO_ev H h0, mapO_ev H h3, like_ev H _ hl] with n h1 h2 h3
        simp only [h1, h2, h3, Option.map_some, h]

end

/-! ### The equations of `Simplify` -/

theorem lim_ev : ∀ e e', lim C e = some e' → ∀ᶠ n in atTop, simp C n e = some e' :=
  fun _ _ h => lim_iff.1 h

theorem lim_add {vs : List (Expr K)} {e' : Expr K} (h : addSimp C (lim C) vs = some e') :
    lim C (.add vs) = some e' := by
  refine lim_succ ?_
  filter_upwards [addSimp_ev lim_ev h] with n h
  simp only [simp, h]

theorem lim_prod {vs : List (Expr K)} {e' : Expr K} (h : prodSimp C (lim C) vs = some e') :
    lim C (.prod vs) = some e' := by
  refine lim_succ ?_
  filter_upwards [prodSimp_ev lim_ev h] with n h
  simp only [simp, h]

theorem lim_con (c : K) : lim C (.con c) = some (.con c) :=
  lim_succ (.of_forall fun n => by simp only [simp])

theorem lim_var (x : Str) : lim C (.var x) = some (.var x) :=
  lim_succ (.of_forall fun n => by simp only [simp])

theorem lim_model (x : Str) : lim C (.model x) = some (.model x) :=
  lim_succ (.of_forall fun n => by simp only [simp])

theorem lim_blog (op : LOp) (a b : Expr K) : lim C (.blog op a b) = some (.blog op a b) :=
  lim_succ (.of_forall fun n => by simp only [simp])

theorem lim_ulog (a : Expr K) : lim C (.ulog a) = some (.ulog a) :=
  lim_succ (.of_forall fun n => by simp only [simp])

theorem lim_user {f : Str} {as as' : List (Expr K)} (h : mapO (lim C) as = some as') :
    lim C (.user f as) = some (.user f as') := by
  refine lim_succ ?_
  filter_upwards [mapO_ev lim_ev h] with n h
  simp only [simp, h, Option.map_some]

/-- Exponentials: every result. -/
theorem lim_exp {a a' : Expr K} (h : lim C a = some a') :
    lim C (.exp a) = some (conI C 1) ∨ (∃ v, a = .log v ∧ lim C (.exp a) = some v) ∨
      lim C (.exp a) = some (.exp a') := by
  by_cases hz : isZero C a = true
  · exact .inl (lim_succ (.of_forall fun n => by simp only [simp, if_pos hz]))
  · by_cases hl : ∃ v, a = .log v
    · obtain ⟨v, rfl⟩ := hl
      refine .inr (.inl ⟨v, rfl, lim_succ (.of_forall fun n => ?_)⟩)
      simp only [simp, if_neg hz]
    · refine .inr (.inr (lim_succ ?_))
      filter_upwards [lim_ev _ _ h] with n h
      cases a <;> first
        | exact absurd ⟨_, rfl⟩ hl
        | simp only [simp, if_neg hz, h, Option.map_some]

/-- Logarithms: every result. -/
theorem lim_log {a a' : Expr K} (h : lim C a = some a') :
    lim C (.log a) = some (conI C 0) ∨ (∃ v, a = .exp v ∧ lim C (.log a) = some v) ∨
      (∃ b e, a = .pow b e ∧ lim C (.log a) = some (mul C e (.log b))) ∨
      lim C (.log a) = some (.log a') := by
  by_cases hz : isOne C a = true
  · exact .inl (lim_succ (.of_forall fun n => by simp only [simp, if_pos hz]))
  · by_cases hl : ∃ v, a = .exp v
    · obtain ⟨v, rfl⟩ := hl
      refine .inr (.inl ⟨v, rfl, lim_succ (.of_forall fun n => ?_)⟩)
      simp only [simp, if_neg hz]
    · by_cases hp : ∃ b e, a = .pow b e
      · obtain ⟨b, e, rfl⟩ := hp
        refine .inr (.inr (.inl ⟨b, e, rfl, lim_succ (.of_forall fun n => ?_)⟩))
        simp only [simp, if_neg hz]
      · refine .inr (.inr (.inr (lim_succ ?_)))
        filter_upwards [lim_ev _ _ h] with n h
        cases a <;> first
          | exact absurd ⟨_, rfl⟩ hl
          | exact absurd ⟨_, _, rfl⟩ hp
          | simp only [simp, if_neg hz, h, Option.map_some]

/-- Powers: every result. -/
theorem lim_pow {b e b' e' : Expr K} (hb : lim C b = some b') (he : lim C e = some e')
    (hm : ∀ y z, b' = .pow y z → ∃ x, lim C (mul C z e') = some x) :
    (∃ c, lim C (.pow b e) = some (.con c)) ∨ lim C (.pow b e) = some b ∨
      (∃ y z x, b' = .pow y z ∧ lim C (mul C z e') = some x ∧ lim C (.pow b e) = some (.pow y x)) ∨
      lim C (.pow b e) = some (.pow b' e') := by
  have ev : ∀ r, (∀ᶠ n in atTop, simp C n b = some b' → simp C n e = some e' →
      simp C (n + 1) (.pow b e) = some r) → lim C (.pow b e) = some r := by
    intro r hr
    refine lim_succ ?_
    filter_upwards [lim_ev _ _ hb, lim_ev _ _ he, hr] with n h1 h2 h3
    exact h3 h1 h2
  by_cases h0 : isZero C e' = true
  · exact .inl ⟨_, ev (conI C 1) (.of_forall fun n h1 h2 => by simp only [simp, h1, h2, if_pos h0])⟩
  · by_cases h1 : isOne C e' = true
    · exact .inr (.inl (ev _ (.of_forall fun n h3 h2 => by
        simp only [simp, h3, h2, if_neg h0, if_pos h1])))
    · by_cases h2 : isOne C b' = true
      · exact .inl ⟨_, ev (conI C 1) (.of_forall fun n h3 h4 => by
          simp only [simp, h3, h4, if_neg h0, if_neg h1, if_pos h2])⟩
      · by_cases h3 : isZero C b' = true
        · exact .inl ⟨_, ev (conI C 0) (.of_forall fun n h5 h4 => by
            simp only [simp, h5, h4, if_neg h0, if_neg h1, if_neg h2, if_pos h3])⟩
        · by_cases hp : ∃ y z, b' = .pow y z
          · obtain ⟨y, z, rfl⟩ := hp
            obtain ⟨x, hx⟩ := hm y z rfl
            refine .inr (.inr (.inl ⟨y, z, x, rfl, hx, ev _ ?_⟩))
            filter_upwards [lim_ev _ _ hx] with n h6 h5 h4
            simp only [simp, h5, h4, if_neg h0, if_neg h1, if_neg h2, if_neg h3, h6, Option.map_some]
          · by_cases hc : ∃ x y, b' = .con x ∧ e' = .con y
            · obtain ⟨x, y, rfl, rfl⟩ := hc
              exact .inl ⟨_, ev _ (.of_forall fun n h5 h4 => by
                simp only [simp, h5, h4, if_neg h0, if_neg h1, if_neg h2, if_neg h3]; rfl)⟩
            · refine .inr (.inr (.inr (ev _ (.of_forall fun n h5 h4 => ?_))))
              simp only [simp, h5, h4, if_neg h0, if_neg h1, if_neg h2, if_neg h3]
              cases b' <;> cases e' <;> first
                | exact absurd ⟨_, _, rfl⟩ hp
                | exact absurd ⟨_, _, rfl, rfl⟩ hc
                | rfl

end Verif.Sym
