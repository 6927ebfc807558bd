import Verif.EqCmd.Spec
import Mathlib.Data.List.Nodup
import Mathlib.Data.String.Basic
import Mathlib.Data.List.Sort

/-!
# Proof details of the equation commands
-/

namespace Verif.EqCmd

/-! ### lists told -/

theorem told_names (l : List (String × Dict)) (n : String) (x : Dict) :
    (told l n x).map (·.1) = if n ∈ l.map (·.1) then l.map (·.1) else l.map (·.1) ++ [n] := by
  unfold told
  split
  · rw [List.map_map]
    apply List.map_congr_left
    intro p _
    by_cases h : p.1 = n
    · simp [h]
    · simp [h]
  · simp

theorem mem_told {l : List (String × Dict)} {n : String} {x : Dict} {n' : String} {x' : Dict} (hn : (l.map (·.1)).Nodup) :
    (n', x') ∈ told l n x ↔ (n' = n ∧ x' = x) ∨ (n' ≠ n ∧ (n', x') ∈ l) := by
  unfold told
  split
  · rename_i hm
    obtain ⟨p, hp, hpn⟩ := List.mem_map.mp hm
    rw [List.mem_map]
    constructor
    · rintro ⟨q, hq, hqe⟩
      by_cases h : q.1 = n
      · rw [if_pos h] at hqe; cases hqe; exact .inl ⟨rfl, rfl⟩
      · rw [if_neg h] at hqe; subst hqe; exact .inr ⟨h, hq⟩
    · rintro (⟨rfl, rfl⟩ | ⟨h, hq⟩)
      · exact ⟨p, hp, by rw [if_pos hpn]⟩
      · exact ⟨(n', x'), hq, by rw [if_neg h]⟩
  · rename_i hm
    rw [List.mem_append, List.mem_singleton]
    constructor
    · rintro (h | h)
      · right
        exact ⟨fun e => hm (List.mem_map.mpr ⟨_, h, e⟩), h⟩
      · cases h; exact .inl ⟨rfl, rfl⟩
    · rintro (⟨rfl, rfl⟩ | ⟨_, h⟩)
      · exact .inr rfl
      · exact .inl h

theorem told_nodup {l : List (String × Dict)} (n : String) (x : Dict) (hn : (l.map (·.1)).Nodup) : ((told l n x).map (·.1)).Nodup := by
  rw [told_names]
  split
  · exact hn
  · rename_i h
    rw [List.nodup_append]
    refine ⟨hn, List.nodup_singleton n, ?_⟩
    intro a ha b hb
    rw [List.mem_singleton] at hb
    subst hb
    rintro rfl; exact h ha

theorem without_names (l : List (String × Dict)) (n : String) : (without l n).map (·.1) = (l.map (·.1)).filter (fun m => m ≠ n) := by
  unfold without
  rw [List.filter_map]
  rfl

theorem mem_without {l : List (String × Dict)} {n n' : String} {x' : Dict} : (n', x') ∈ without l n ↔ n' ≠ n ∧ (n', x') ∈ l := by
  unfold without
  rw [List.mem_filter]
  simp [and_comm]

theorem unique {l : List (String × Dict)} (hn : (l.map (·.1)).Nodup) {n : String} {x y : Dict} (h1 : (n, x) ∈ l) (h2 : (n, y) ∈ l) : x = y := by
  have := List.inj_on_of_nodup_map hn h1 h2 rfl
  exact (Prod.mk.inj this).2

/-! ### dictionaries -/

theorem lookup_map (ks : List String) (f : String → String) (n : String) :
    (ks.map fun k => (k, f k)).lookup n = if n ∈ ks then some (f n) else none := by
  induction ks with
  | nil => simp
  | cons k ks ih =>
    rw [List.map_cons, List.lookup_cons]
    by_cases h : n = k
    · subst h; simp
    · have h' : (n == k) = false := by simp [h]
      rw [h']
      dsimp only
      rw [ih]
      simp [h]

theorem keywords_nodup (k : Kind) : k.keywords.Nodup := by cases k <;> simp [Kind.keywords]

/-- the pairs of a list are the dictionary -/
theorem dict_of (k : Kind) (g : String → String) (l : List (String × String))
    (h : l = k.keywords.map fun n => (n, if k = .interface ∧ (n = "name0" ∨ n = "name1") ∧ g n = "" then g "name" else g n)) :
    reads l = dict k g ∧ (l.map (·.1)).Nodup := by
  subst h
  constructor
  · funext n; unfold reads; rw [lookup_map]; rfl
  · rw [List.map_map]
    have : ((fun x : String × String => x.1) ∘ fun n => (n, if k = .interface ∧ (n = "name0" ∨ n = "name1") ∧ g n = "" then g "name" else g n)) = id := rfl
    rw [this, List.map_id]
    exact keywords_nodup k

/-! ### tables that show an account -/

/-- the equations of a table are those of the account -/
structure ShowsMap {V : Type} (m : FMap String V) (name : V → String) (opt : V → List (String × String)) (l : List (String × Dict)) : Prop where
  wf : m.WF
  nodup : (l.map (·.1)).Nodup
  mem : ∀ n, n ∈ m.keys ↔ n ∈ l.map (·.1)
  told : ∀ n x, (n, x) ∈ l → ∃ e, m.get n = some e ∧ name e = n ∧ reads (opt e) = x ∧ ((opt e).map (·.1)).Nodup

variable {V : Type} {m : FMap String V} {name : V → String} {opt : V → List (String × String)} {l : List (String × Dict)}

theorem ShowsMap.nil : ShowsMap ([] : FMap String V) name opt [] :=
  ⟨FMap.WF.nil, by simp, by simp [FMap.keys], by simp⟩

theorem ShowsMap.set (h : ShowsMap m name opt l) (e : V) (x : Dict) (hx : reads (opt e) = x ∧ ((opt e).map (·.1)).Nodup) :
    ShowsMap (m.set (name e) e) name opt (EqCmd.told l (name e) x) := by
  refine ⟨h.wf.set _ _, told_nodup _ _ h.nodup, ?_, ?_⟩
  · intro n
    rw [FMap.mem_keys, FMap.get_set, told_names]
    by_cases hn : n = name e
    · subst hn
      simp only [if_true, Option.isSome_some, true_iff]
      split
      · assumption
      · simp
    · rw [if_neg hn, ← FMap.mem_keys, h.mem]
      split
      · rfl
      · simp [hn]
  · intro n y hy
    rw [mem_told h.nodup] at hy
    rw [FMap.get_set]
    rcases hy with ⟨rfl, rfl⟩ | ⟨hn, hy⟩
    · exact ⟨e, by rw [if_pos rfl], rfl, hx⟩
    · rw [if_neg hn]; exact h.told n y hy

theorem ShowsMap.erase (h : ShowsMap m name opt l) (n : String) : ShowsMap (m.erase n) name opt (without l n) := by
  refine ⟨h.wf.erase _, ?_, ?_, ?_⟩
  · rw [without_names]; exact h.nodup.filter _
  · intro n'
    rw [FMap.keys_erase, without_names, List.mem_filter, List.mem_filter, h.mem]
  · intro n' x' hx
    rw [mem_without] at hx
    rw [FMap.get_erase, if_neg hx.1]
    exact h.told n' x' hx.2

theorem ShowsMap.get_none (h : ShowsMap m name opt l) {n : String} (hg : m.get n = none) : n ∉ l.map (·.1) := by
  rw [← h.mem, FMap.mem_keys, hg]; simp

theorem ShowsMap.get_some (h : ShowsMap m name opt l) {n : String} {e : V} (hg : m.get n = some e) :
    n ∈ l.map (·.1) ∧ name e = n ∧ ∃ x, (n, x) ∈ l ∧ reads (opt e) = x ∧ ((opt e).map (·.1)).Nodup := by
  have hm : n ∈ l.map (·.1) := by rw [← h.mem, FMap.mem_keys, hg]; simp
  obtain ⟨p, hp, hpn⟩ := List.mem_map.mp hm
  subst hpn
  obtain ⟨e', h1, h2, h3⟩ := h.told p.1 p.2 hp
  rw [hg] at h1; cases h1
  exact ⟨hm, h2, p.2, hp, h3⟩

theorem ShowsMap.sorted (h : ShowsMap m name opt l) : (sortedKeys m).Perm (l.map (·.1)) ∧ (sortedKeys m).Pairwise (· ≤ ·) := by
  constructor
  · have h1 : (sortedKeys m).Perm m.keys := List.perm_insertionSort _ _
    refine h1.trans ?_
    rw [List.perm_ext_iff_of_nodup h.wf h.nodup]
    exact h.mem
  · exact List.pairwise_insertionSort (· ≤ ·) _

/-- the tables of a region show the account; the variable table only as long as `exact` -/
structure ShowsReg (exact : Bool) (r : Reg) (d p : String) (l : List (String × Dict)) : Prop where
  eqs : ShowsMap r.eqs BulkEq.name (fun e => e.options d p) l
  wfi : r.idx.WF
  idx : ∀ n i, r.idx.get n = some i ↔ (l.map (·.1))[i]? = some n
  num : r.num = l.length
  len : r.eqs.length = l.length
  named : "" ∉ l.map (·.1)
  vars : exact = true → ∀ v n, r.var.get v = some n ↔ ∃ x, (n, x) ∈ l ∧ x "variable_name" = some v

theorem options_var {e : BulkEq} {d p : String} : reads (e.options d p) "variable_name" = some e.var := by
  simp [reads, BulkEq.options, List.lookup]

theorem place_fills (idx : FMap String Nat) (names : List String) (hnd : names.Nodup) (hi : ∀ n i, idx.get n = some i ↔ names[i]? = some n)
    (hne : "" ∉ names) : ∀ (ks out : List String), ks.Nodup → (∀ k ∈ ks, k ∈ names) → out.length = names.length →
    (∀ (i : Nat) n, names[i]? = some n → out[i]? = some (if n ∈ ks then "" else n)) → place idx ks out = some names := by
  intro ks
  induction ks with
  | nil =>
    intro out _ _ hlen hout
    unfold place
    congr 1
    apply List.ext_getElem? 
    intro i
    cases hn : names[i]? with
    | none =>
      rw [List.getElem?_eq_none_iff] at hn ⊢
      omega
    | some n => rw [hout i n hn]; simp
  | cons k ks ih =>
    intro out hks hsub hlen hout
    have hk : k ∉ ks := (List.nodup_cons.mp hks).1
    obtain ⟨i, hik⟩ := List.mem_iff_getElem?.mp (hsub k (by simp))
    have hg := (hi k i).mpr hik
    have hb : i < names.length := (List.getElem?_eq_some_iff.mp hik).1
    have ho := hout i k hik
    unfold place
    rw [hg]
    dsimp only
    rw [if_pos ⟨by omega, by rw [List.getD_eq_getElem?_getD, ho]; simp⟩]
    apply ih _ (List.nodup_cons.mp hks).2 (fun x hx => hsub x (by simp [hx])) (by rw [List.length_set]; exact hlen)
    intro j n hj
    rw [List.getElem?_set]
    by_cases hij : i = j
    · subst hij
      rw [hik] at hj; cases hj
      rw [if_pos rfl, if_pos (by omega), if_neg hk]
    · rw [if_neg hij, hout j n hj]
      have : n ≠ k := by
        rintro rfl
        have h1 := (hi n j).mpr hj
        rw [hg] at h1; cases h1; exact hij rfl
      simp [this]

theorem ShowsReg.list {exact : Bool} {r : Reg} {d p : String} {l : List (String × Dict)} (h : ShowsReg exact r d p l) :
    r.list = .names (l.map (·.1)) := by
  obtain ⟨h1, _⟩ := h.eqs.sorted
  unfold Reg.list
  rw [place_fills r.idx (l.map (·.1)) h.eqs.nodup h.idx h.named (sortedKeys r.eqs) _ (h1.nodup_iff.mpr h.eqs.nodup) (fun k hk => h1.mem_iff.mp hk)
    (by rw [List.length_replicate]; exact h1.length_eq)]
  intro i n hn
  have hm : n ∈ l.map (·.1) := List.mem_of_getElem? hn
  rw [if_pos (h1.mem_iff.mpr hm), List.getElem?_replicate, if_pos]
  rw [h1.length_eq]
  exact (List.getElem?_eq_some_iff.mp hn).1

theorem ShowsReg.weaken {exact : Bool} {r : Reg} {d p : String} {l : List (String × Dict)} (h : ShowsReg exact r d p l) (exact' : Bool)
    (he : exact' = true → exact = true) : ShowsReg exact' r d p l :=
  { h with vars := fun e => h.vars (he e) }

/-- after an equation is added -/
theorem ShowsReg.add {exact : Bool} {r r' : Reg} {d p : String} {l : List (String × Dict)} (h : ShowsReg exact r d p l) (e : BulkEq) (x : Dict)
    (hx : reads (e.options d p) = x ∧ ((e.options d p).map (·.1)).Nodup) (hne : e.name ≠ "") (ha : r.add e = some r') (exact' : Bool)
    (he : exact' = true → exact = true ∧ ∀ y, (e.name, y) ∈ l → y "variable_name" = some e.var) :
    ShowsReg exact' r' d p (told l e.name x) ∧
      (exact = true → e.name ∈ l.map (·.1) ∨ ∀ n y, (n, y) ∈ l → y "variable_name" ≠ some e.var) := by
  have hvx : x "variable_name" = some e.var := by rw [← hx.1]; exact options_var
  unfold Reg.add at ha
  cases hg : r.eqs.get e.name with
  | some oe =>
    rw [hg] at ha
    dsimp only at ha
    obtain ⟨hm, hon, y, hy, hly, _⟩ := h.eqs.get_some hg
    have hnames : (told l e.name x).map (·.1) = l.map (·.1) := by rw [told_names, if_pos hm]
    have hlen : (told l e.name x).length = l.length := by
      have := congrArg List.length hnames; simpa using this
    have hl2 : (r.eqs.set e.name e).length = l.length := by
      rw [Equations.length_set_old _ _ _ h.eqs.wf (by rw [hg]; simp)]; exact h.len
    have hoe : y "variable_name" = some oe.var := by rw [← hly]; exact options_var
    refine ⟨?_, fun _ => .inl hm⟩
    cases ha
    refine ⟨h.eqs.set e x hx, h.wfi, ?_, ?_, ?_, ?_, ?_⟩
    · intro n i; rw [hnames]; exact h.idx n i
    · rw [hlen]; exact h.num
    · rw [hlen]; exact hl2
    · rw [hnames]; exact h.named
    · intro ht v n
      obtain ⟨h1, h2⟩ := he ht
      have hv := h2 y hy
      rw [hoe] at hv
      replace hv : oe.var = e.var := Option.some.inj hv
      dsimp only
      rw [if_neg (by rw [hv]; simp), h.vars h1 v n]
      constructor
      · rintro ⟨z, hz, hzv⟩
        by_cases hn : n = e.name
        · subst hn
          have := unique h.eqs.nodup hz hy
          subst this
          rw [hoe] at hzv
          exact ⟨x, (mem_told h.eqs.nodup).mpr (.inl ⟨rfl, rfl⟩), by rw [hvx, ← hv]; exact hzv⟩
        · exact ⟨z, (mem_told h.eqs.nodup).mpr (.inr ⟨hn, hz⟩), hzv⟩
      · rintro ⟨z, hz, hzv⟩
        rcases (mem_told h.eqs.nodup).mp hz with ⟨rfl, rfl⟩ | ⟨hn, hz⟩
        · exact ⟨y, hy, by rw [hoe, hv, ← hvx]; exact hzv⟩
        · exact ⟨z, hz, hzv⟩
  | none =>
    rw [hg] at ha
    dsimp only at ha
    split at ha
    · cases ha
    · rename_i hvar
      have hm := h.eqs.get_none hg
      have hnames : (told l e.name x).map (·.1) = l.map (·.1) ++ [e.name] := by rw [told_names, if_neg hm]
      have hlen : (told l e.name x).length = l.length + 1 := by
        have := congrArg List.length hnames; simpa using this
      have hl2 : (r.eqs.set e.name e).length = l.length + 1 := by
        rw [Equations.length_set_new _ _ _ h.eqs.wf hg, h.len]
      have hnov : exact = true → ∀ n y, (n, y) ∈ l → y "variable_name" ≠ some e.var := by
        intro hex n y hy hv
        have := (h.vars hex e.var n).mpr ⟨y, hy, hv⟩
        exact hvar (by simp [FMap.has, this])
      refine ⟨?_, fun hex => .inr (hnov hex)⟩
      cases ha
      refine ⟨h.eqs.set e x hx, h.wfi.set _ _, ?_, ?_, ?_, ?_, ?_⟩
      · intro n i
        dsimp only
        rw [FMap.get_set, hnames, h.len]
        by_cases hn : n = e.name
        · subst hn
          rw [if_pos rfl]
          constructor
          · intro hi; cases hi; simp
          · intro hi
            rw [List.getElem?_append] at hi
            split at hi
            · exact absurd (List.mem_of_getElem? hi) hm
            · rename_i hlt
              have hb := (List.getElem?_eq_some_iff.mp hi).1
              simp at hb hlt ⊢; omega
        · rw [if_neg hn, h.idx n i, List.getElem?_append]
          split
          · rfl
          · rename_i hlt
            constructor
            · intro hi; rw [List.getElem?_eq_none (by omega)] at hi; cases hi
            · intro hi
              have := List.mem_of_getElem? hi
              rw [List.mem_singleton] at this; exact absurd this hn
      · dsimp only; rw [hlen, hl2]
      · dsimp only; rw [hlen, hl2]
      · rw [hnames, List.mem_append, List.mem_singleton]
        rintro (h' | h')
        · exact h.named h'
        · exact hne h'.symm
      · intro ht v n
        obtain ⟨h1, _⟩ := he ht
        dsimp only
        rw [FMap.get_set]
        by_cases hv : v = e.var
        · subst hv
          rw [if_pos rfl]
          constructor
          · intro hh; cases hh
            exact ⟨x, (mem_told h.eqs.nodup).mpr (.inl ⟨rfl, rfl⟩), hvx⟩
          · rintro ⟨z, hz, hzv⟩
            rcases (mem_told h.eqs.nodup).mp hz with ⟨rfl, rfl⟩ | ⟨hn, hz⟩
            · rfl
            · exact absurd hzv (hnov h1 n z hz)
        · rw [if_neg hv, h.vars h1 v n]
          constructor
          · rintro ⟨z, hz, hzv⟩
            exact ⟨z, (mem_told h.eqs.nodup).mpr (.inr ⟨fun e' => hm (List.mem_map.mpr ⟨_, hz, e'⟩), hz⟩), hzv⟩
          · rintro ⟨z, hz, hzv⟩
            rcases (mem_told h.eqs.nodup).mp hz with ⟨rfl, rfl⟩ | ⟨hn, hz⟩
            · rw [hvx] at hzv; cases hzv; exact absurd rfl hv
            · exact ⟨z, hz, hzv⟩

/-- an equation is not added only if its variable is used -/
theorem ShowsReg.add_none {exact : Bool} {r : Reg} {d p : String} {l : List (String × Dict)} (h : ShowsReg exact r d p l) (e : BulkEq)
    (ha : r.add e = none) (he : exact = true) : ¬ (e.name ∈ l.map (·.1) ∨ ∀ n y, (n, y) ∈ l → y "variable_name" ≠ some e.var) := by
  unfold Reg.add at ha
  cases hg : r.eqs.get e.name with
  | some oe => rw [hg] at ha; dsimp only at ha; cases ha
  | none =>
    rw [hg] at ha
    dsimp only at ha
    split at ha
    · rename_i hvar
      obtain ⟨n, hn⟩ := Option.isSome_iff_exists.mp (show (r.var.get e.var).isSome = true from hvar)
      obtain ⟨x, hx, hxv⟩ := (h.vars he e.var n).mp hn
      rintro (hh | hh)
      · exact h.eqs.get_none hg hh
      · exact hh n x hx hxv
    · cases ha

/-- after an equation is deleted -/
theorem ShowsReg.delete {exact : Bool} {r : Reg} {d p : String} {l : List (String × Dict)} (h : ShowsReg exact r d p l) {n : String} {e : BulkEq}
    (hg : r.eqs.get n = some e) : (∃ r', r.delete e = some r' ∧ ShowsReg exact r' d p (without l n)) ∨ (r.delete e = none ∧ exact = false) := by
  obtain ⟨hm, hen, x, hx, hlx, _⟩ := h.eqs.get_some hg
  have hxv : x "variable_name" = some e.var := by rw [← hlx]; exact options_var
  subst hen
  obtain ⟨a, ha⟩ := List.mem_iff_getElem?.mp hm
  have hi := (h.idx e.name a).mpr ha
  unfold Reg.delete
  rw [if_neg (by simp [FMap.has, hg]), hi]
  dsimp only
  by_cases hv : r.var.has e.var = false
  · right
    rw [if_pos hv]
    refine ⟨rfl, ?_⟩
    cases he : exact with
    | false => rfl
    | true =>
      have := (h.vars he e.var e.name).mpr ⟨x, hx, hxv⟩
      simp [FMap.has, this] at hv
  · left
    rw [if_neg hv]
    refine ⟨_, rfl, ?_⟩
    have hb : a < (l.map (·.1)).length := (List.getElem?_eq_some_iff.mp ha).1
    have hnames : (without l e.name).map (·.1) = (l.map (·.1)).eraseIdx a := by
      rw [without_names]
      have h1 := h.eqs.nodup.erase_eq_filter e.name
      have h2 : (l.map (·.1)).erase e.name = (l.map (·.1)).eraseIdx a := by
        have hga := (List.getElem?_eq_some_iff.mp ha).2
        rw [← hga]
        exact h.eqs.nodup.erase_getElem a hb
      rw [← h2, h1]
      apply List.filter_congr
      intro y _
      by_cases hy : y = e.name
      · simp [hy]
      · simp [hy]
    have hlen : (without l e.name).length + 1 = l.length := by
      have := congrArg List.length hnames
      rw [List.length_eraseIdx, if_pos hb] at this
      simp at this hb; omega
    have hl2 := Equations.length_erase r.eqs e.name h.eqs.wf (by rw [hg]; simp)
    refine ⟨h.eqs.erase _, ?_, ?_, ?_, ?_, ?_, ?_⟩
    · have hk : (Equations.shift a (r.idx.erase e.name)).keys = (r.idx.erase e.name).keys := by
        simp [Equations.shift, FMap.keys, Function.comp_def]
      unfold FMap.WF
      rw [hk]
      exact h.wfi.erase _
    · intro n i
      dsimp only
      rw [Equations.get_shift, FMap.get_erase, hnames, List.getElem?_eraseIdx]
      by_cases hn : n = e.name
      · subst hn
        rw [if_pos rfl]
        constructor
        · intro hh; cases hh
        · intro hh
          split at hh
          · have := (h.idx _ _).mpr hh; rw [hi] at this; cases this; omega
          · have := (h.idx _ _).mpr hh; rw [hi] at this; cases this; omega
      · rw [if_neg hn]
        constructor
        · intro hh
          cases hj : r.idx.get n with
          | none => rw [hj] at hh; cases hh
          | some j =>
            rw [hj] at hh
            simp only [Option.map_some, Option.some.injEq] at hh
            have hj' := (h.idx n j).mp hj
            have hja : j ≠ a := by rintro rfl; rw [ha] at hj'; cases hj'; exact hn rfl
            split at hh
            · rw [if_neg (by omega)]; rw [show i + 1 = j by omega]; exact hj'
            · rw [if_pos (by omega), ← hh]; exact hj'
        · intro hh
          split at hh
          · rw [(h.idx _ _).mpr hh, Option.map_some, if_neg (by omega)]
          · rw [(h.idx _ _).mpr hh, Option.map_some, if_pos (by omega), Nat.add_sub_cancel]
    · dsimp only; have := h.len; omega
    · dsimp only; have := h.len; omega
    · rw [without_names]
      intro hh
      exact h.named (List.mem_filter.mp hh).1
    · intro he v n
      dsimp only
      rw [FMap.get_erase]
      by_cases hve : v = e.var
      · subst hve
        rw [if_pos rfl]
        constructor
        · intro hh; cases hh
        · rintro ⟨z, hz, hzv⟩
          rw [mem_without] at hz
          have h1 := (h.vars he e.var n).mpr ⟨z, hz.2, hzv⟩
          have h2 := (h.vars he e.var e.name).mpr ⟨x, hx, hxv⟩
          rw [h1] at h2; cases h2; exact absurd rfl hz.1
      · rw [if_neg hve, h.vars he v n]
        constructor
        · rintro ⟨z, hz, hzv⟩
          refine ⟨z, mem_without.mpr ⟨?_, hz⟩, hzv⟩
          rintro rfl
          have := unique h.eqs.nodup hz hx
          subst this
          rw [hxv] at hzv; cases hzv; exact hve rfl
        · rintro ⟨z, hz, hzv⟩
          exact ⟨z, (mem_without.mp hz).2, hzv⟩

end Verif.EqCmd
