import Verif.Sym.Positive

/-!
# Being made of positive parts can be read off the text
-/

namespace Verif.Sym

variable {K : Type}

mutual
/-- A parsed expression is made of positive parts. -/
def PMR (C : Cfg K) (T : Tables) (read : Str → K) (ρ : Env) : Raw → Prop
  | .num s => 0 < rv C T read ρ (.num s)
  | .name s => 0 < rv C T read ρ (.name s)
  | .call f as =>
    if f = ['e', 'x', 'p'] then True
    else if f = ['l', 'o', 'g'] then False
    else if f = ['p', 'o', 'w'] then PMHead C T read ρ as
    else 0 < rv C T read ρ (.call f as)
  | .bin .plus a b => PMR C T read ρ a ∧ PMR C T read ρ b
  | .bin .mul a b => PMR C T read ρ a ∧ PMR C T read ρ b
  | _ => False
def PMHead (C : Cfg K) (T : Tables) (read : Str → K) (ρ : Env) : List Raw → Prop
  | [] => False
  | r :: _ => PMR C T read ρ r
end

section
variable {C : Cfg K} {T : Tables} {read : Str → K} {ρ : Env}

theorem PMR_items (x : Raw) (ts : List (BOp × PTree)) :
    PMR C T read ρ (rawItems x (.ofList ts)) ↔ PMR C T read ρ x ∧
      ∀ t ∈ ts, (t.1 = .plus ∨ t.1 = .mul) ∧ PMR C T read ρ (raw t.2) := by
  induction ts generalizing x with
  | nil => simp [PItems.ofList, rawItems]
  | cons t ts ih =>
    rw [PItems.ofList, rawItems, ih]
    obtain ⟨o, t⟩ := t
    cases o <;> simp [BOp.bin, PMR, and_assoc]

theorem P_not_neg (hC : C.Exact) {v : Expr K} (h : P C ρ v) : negSign C v = false := by
  cases v with
  | con c =>
    simp only [negSign]
    rw [← Bool.not_eq_true, hC.isNeg]
    have := P_pos h
    rw [eval_con] at this
    exact not_lt.2 this.le
  | prod vs =>
    simp only [negSign]
    split
    · rename_i c hc
      have := P_pos (h.prod_inv _ (consts_sub vs c (by rw [hc]; simp)))
      rw [eval_con] at this
      rw [← Bool.not_eq_true, hC.isNeg]
      exact not_lt.2 this.le
    · rfl
  | _ => rfl

/-- A good expression is made of positive parts just when its text is. -/
theorem P_iff_text (hC : C.Exact) {S : K → Prop} (hF : C.Faithful S read) (e : Expr K) :
    WF T S e → G C ρ e → (P C ρ e ↔ PMR C T read ρ (raw (ptree C e))) := by
  induction e using Expr.ind with
  | hcon c =>
    intro hw _
    cases hw with
    | con hc =>
      rw [ptree_con]
      split
      · rename_i h
        rw [hC.isNeg] at h
        refine ⟨fun hp => ?_, fun hp => ?_⟩
        · have := P_pos hp; rw [eval_con] at this; linarith
        · simp [raw, rawItems, UOp.raw, PMR] at hp
      · rename_i h
        have hv := hF.val c hc (by simpa using h)
        simp only [raw, PMR, rv, hv]
        refine ⟨fun hp => ?_, fun hp => .conP hp⟩
        have := P_pos hp; rwa [eval_con] at this
  | hvar x =>
    intro hw _
    cases hw with
    | var _ _ _ h4 =>
      rw [ptree_var]
      simp only [raw, PMR, rv, h4, Bool.false_eq_true, if_false]
      refine ⟨fun hp => ?_, fun hp => .varP hp⟩
      have := P_pos hp; rwa [eval_var] at this
  | hmodel x =>
    intro hw _
    cases hw with
    | model _ _ _ h4 =>
      rw [ptree_model]
      simp only [raw, PMR, rv, h4, if_true]
      refine ⟨fun hp => ?_, fun hp => .modelP hp⟩
      have := P_pos hp; rwa [eval_model] at this
  | hadd vs ih =>
    intro hw hg
    cases hw with
    | add hne hv =>
      have hgv := hg.add_inv
      let g : Expr K → Bool × PTree := fun v =>
        if negSign C v then (true, ptree C (unsigned C v)) else (false, ptree C v)
      have ht : ptree C (.add vs) = addTree (vs.map g) := ptree_add C vs
      rw [ht]
      match vs, hne with
      | v :: vs, _ =>
        rw [List.map_cons]
        have hu : addTree (g v :: vs.map g) = .paren (if (g v).1 then .neg else .none) (g v).2
            (.ofList ((vs.map g).map fun st =>
              (if st.1 then BOp.minus else BOp.plus, st.2))) := rfl
        rw [hu, raw, PMR_items]
        constructor
        · intro hp
          have hp := hp.add_inv
          have hn : ∀ w ∈ v :: vs, g w = (false, ptree C w) := by
            intro w hw
            have := P_not_neg hC (hp w hw)
            simp only [g, this, Bool.false_eq_true, if_false]
          refine ⟨?_, ?_⟩
          · rw [hn v (by simp)]
            exact (ih v (by simp) (hv v (by simp)) (hgv v (by simp))).1 (hp v (by simp))
          · intro t ht'
            simp only [List.map_map, List.mem_map, Function.comp_apply] at ht'
            obtain ⟨w, hw, rfl⟩ := ht'
            rw [hn w (by simp [hw])]
            exact ⟨.inl rfl, (ih w (by simp [hw]) (hv w (by simp [hw])) (hgv w (by simp [hw]))).1
              (hp w (by simp [hw]))⟩
        · rintro ⟨h1, h2⟩
          refine .add (by simp) fun w hw => ?_
          rcases List.mem_cons.1 hw with rfl | hw'
          · by_cases hs : negSign C w = true
            · have hgw : g w = (true, ptree C (unsigned C w)) := by simp only [g, hs, if_true]
              rw [hgw] at h1
              simp [UOp.raw, PMR] at h1
            · have hgw : g w = (false, ptree C w) := by simp only [g, hs]; rfl
              rw [hgw] at h1
              exact (ih w hw (hv w hw) (hgv w hw)).2 h1
          · have h3 := h2 (if (g w).1 then BOp.minus else BOp.plus, (g w).2)
              (by simp only [List.map_map, List.mem_map, Function.comp_apply]; exact ⟨w, hw', rfl⟩)
            by_cases hs : negSign C w = true
            · have hgw : g w = (true, ptree C (unsigned C w)) := by simp only [g, hs, if_true]
              rw [hgw] at h3
              simp at h3
            · have hgw : g w = (false, ptree C w) := by simp only [g, hs]; rfl
              rw [hgw] at h3
              exact (ih w hw (hv w hw) (hgv w hw)).2 h3.2
  | hprod vs ih =>
    intro hw hg
    cases hw with
    | prod hl hv =>
      have hgv := hg.prod_inv
      match vs, hl with
      | v :: v1 :: vs, _ =>
        have ht : ptree C (.prod (v :: v1 :: vs)) =
            if render (ptree C v) = ['(', '-', '1', ')'] then
              .paren .neg (ptree C v1) (.ofList ((vs.map (ptree C)).map fun t => (.mul, t)))
            else .paren .none (ptree C v)
              (.ofList ((ptree C v1 :: vs.map (ptree C)).map fun t => (.mul, t))) := by
          rw [ptree_prod]; rfl
        rw [ht]
        by_cases hr : render (ptree C v) = ['(', '-', '1', ')']
        · rw [if_pos hr, raw, PMR_items]
          have g0 := good hC hF ρ (size v) v le_rfl (hv v (by simp))
          have hv1 : eval C ρ v = -1 := by
            rw [← g0.val, raw_minus_one g0.ok hr]
            simp [rv, hF.one]
          constructor
          · intro hp
            have := P_pos (hp.prod_inv v (by simp))
            rw [hv1] at this; norm_num at this
          · intro h; have := h.1; simp [UOp.raw, PMR] at this
        · rw [if_neg hr, raw, PMR_items]
          constructor
          · intro hp
            have hp := hp.prod_inv
            refine ⟨(ih v (by simp) (hv v (by simp)) (hgv v (by simp))).1 (hp v (by simp)), ?_⟩
            intro t ht'
            rw [← List.map_cons (f := ptree C), List.map_map] at ht'
            obtain ⟨w, hw, rfl⟩ := List.mem_map.1 ht'
            have hm : w ∈ v :: v1 :: vs := List.mem_cons_of_mem _ hw
            exact ⟨.inr rfl, (ih w hm (hv w hm) (hgv w hm)).1 (hp w hm)⟩
          · rintro ⟨h1, h2⟩
            refine .prod fun w hw => ?_
            rcases List.mem_cons.1 hw with rfl | hw'
            · exact (ih w hw (hv w hw) (hgv w hw)).2 h1
            · have h3 := h2 (.mul, ptree C w) (by
                rw [← List.map_cons (f := ptree C), List.map_map]
                exact List.mem_map.2 ⟨w, hw', rfl⟩)
              exact (ih w hw (hv w hw) (hgv w hw)).2 h3.2
  | hexp a ih =>
    intro _ hg
    rw [ptree_exp]
    simp only [raw, PMR, if_true, iff_true]
    exact .exp hg.exp_inv
  | hlog a ih =>
    intro _ hg
    rw [ptree_log]
    simp only [raw, PMR]
    rw [if_neg (by decide), if_pos trivial, iff_false]
    intro h; cases h
  | hpow b e ihb ihe =>
    intro hw hg
    cases hw with
    | pow hb he =>
      rw [ptree_pow]
      simp only [raw, PMR]
      rw [if_neg (by decide), if_neg (by decide), if_pos trivial]
      simp only [rawArgs, PMHead]
      obtain ⟨h1, h2, _⟩ := hg.pow_inv
      constructor
      · intro hp; exact (ihb hb h1).1 hp.powP_inv.1
      · intro hp; exact .powP ((ihb hb h1).2 hp) h2
  | huser f as ih =>
    intro hw hg
    have g := good hC hF ρ (size (.user f as)) _ le_rfl hw
    cases hw with
    | user h1 h2 h3 h4 h5 hv =>
      have hne : f ≠ ['e', 'x', 'p'] ∧ f ≠ ['l', 'o', 'g'] ∧ f ≠ ['p', 'o', 'w'] := by
        refine ⟨?_, ?_, ?_⟩ <;> rintro rfl <;> revert h3 <;> decide
      have gv := g.val
      rw [ptree_user, raw] at gv ⊢
      rw [PMR, if_neg hne.1, if_neg hne.2.1, if_neg hne.2.2, gv]
      exact ⟨fun hp => P_pos hp, fun hp => .user (fun _ => hp) hg.user_inv⟩
  | hblog op a b _ _ =>
    intro _ _
    rw [ptree_blog]
    simp only [raw, rawItems, UOp.raw, BOp.bin, PMR, iff_false]
    intro h; cases h
  | hulog a _ =>
    intro _ _
    rw [ptree_ulog]
    simp only [raw, rawItems, UOp.raw, PMR, iff_false]
    intro h; cases h

/-- Of two good expressions with the same text both are made of positive parts, or none. -/
theorem P_of_str (hC : C.Exact) {S : K → Prop} (hF : C.Faithful S read) {a b : Expr K}
    (ha : WF T S a) (hb : WF T S b) (h : str C a = str C b) (hp : P C ρ a) (hg : G C ρ b) :
    P C ρ b := by
  have ga := good hC hF ρ (size a) a le_rfl ha
  have gb := good hC hF ρ (size b) b le_rfl hb
  have h1 := parseRaw_render _ ga.ok
  have h2 := parseRaw_render _ gb.ok
  unfold str at h
  rw [h, h2] at h1
  have h3 : raw (ptree C b) = raw (ptree C a) := Option.some.inj h1
  rw [P_iff_text hC hF b hb hg, h3]
  exact (P_iff_text hC hF a ha hp.g).1 hp

end

end Verif.Sym
