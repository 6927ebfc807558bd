import Verif.EqCmd.Story

/-!
# C92 for the commands with their keywords; C93: the numbers of the equations
-/

namespace Verif.EqCmd

open Verif.PyArg (Py Lib Opt Means)
open Verif.SetVals (Text text_of not_good)

/-! ### the numbers of an equation -/

/-- the equation that is asked for -/
inductive AskedFor (A : Account) (g : String → String) (n : String) : Prop
  | equation (he : g "equation" = n) (hv : g "variable" = "") (hn : n ≠ "") : AskedFor A g n
  | viaVariable (he : g "equation" = "") (hv : g "variable" ≠ "") (x) (hx : (n, x) ∈ A .bulk (g "device") (g "region"))
      (h : x "variable_name" = some (g "variable")) : AskedFor A g n

/-- What `get_equation_numbers` answers: the equation at position `i` of `get_equation_list` has at the node `k` the number
`base + i * numNodes + k`; `base` is the number the last solve gave the region. -/
inductive Numbers (W : World) (A : Account) (g : String → String) : Res → Prop
  | both (h : g "variable" ≠ "" ∧ g "equation" ≠ "") (m) (hm : m ≠ "") : Numbers W A g (.err m)
  | none (h : g "variable" = "" ∧ g "equation" = "") (m) (hm : m ≠ "") : Numbers W A g (.err m)
  | away (h : ¬ There W (g "device") (g "region") .bulk) (m) (hm : m ≠ "") : Numbers W A g (.err m)
  | noVariable (he : g "equation" = "") (hv : g "variable" ≠ "") (h : ∀ n, ¬ AskedFor A g n) : Numbers W A g (.err "")
  | noEquation (n) (h : AskedFor A g n) (hn : n ∉ (A .bulk (g "device") (g "region")).map (·.1)) (m) (hm : m ≠ "") : Numbers W A g (.err m)
  | unsolved (r) (hr : region? W (g "device") (g "region") = some r) (n) (h : AskedFor A g n)
      (hn : n ∈ (A .bulk (g "device") (g "region")).map (·.1)) (hb : r.base = Option.none) (h0 : r.numNodes ≠ 0) : Numbers W A g .raised
  | numbers (r) (hr : region? W (g "device") (g "region") = some r) (n) (h : AskedFor A g n) (i : Nat)
      (hi : ((A .bulk (g "device") (g "region")).map (·.1))[i]? = some n) (l : List Nat) (hl : l.length = r.numNodes)
      (hk : ∀ k, k < r.numNodes → ∃ b, r.base = some b ∧ l[k]? = some (b + i * r.numNodes + k)) : Numbers W A g (.numbers l)

/-- C93: `get_equation_numbers`; with a variable as long as no equation was told again with another one -/
theorem equation_numbers {exact : Bool} {W : World} {A : Account} (h : Shows exact W A) (g : String → String)
    (hx : exact = true ∨ g "variable" = "") : Numbers W A g (equationNumbers W g).2 ∧ (equationNumbers W g).1 = W := by
  unfold equationNumbers
  dsimp only
  split
  · rename_i h1; exact ⟨.none h1 _ (by simp), rfl⟩
  rename_i h1
  split
  · rename_i h2; exact ⟨.both h2 _ (by simp), rfl⟩
  rename_i h2
  cases hr : region? W (g "device") (g "region") with
  | none =>
    refine ⟨.away (by rintro ⟨r, hr'⟩; rw [hr] at hr'; cases hr') _ (by simp [String.append_eq_empty_iff]), rfl⟩
  | some r =>
    dsimp only
    have hs := h.bulk _ _ _ hr
    generalize hen : (if g "variable" ≠ "" then (r.var.get (g "variable")).getD "" else g "equation") = en
    have key : (en = "" ∧ g "equation" = "" ∧ g "variable" ≠ "" ∧ ∀ n, ¬ AskedFor A g n) ∨ (en ≠ "" ∧ AskedFor A g en) := by
      subst hen
      by_cases hv : g "variable" = ""
      · have he : g "equation" ≠ "" := fun he => h1 ⟨hv, he⟩
        right
        rw [if_neg (by simpa using hv)]
        exact ⟨he, .equation rfl hv he⟩
      · have he : g "equation" = "" := by by_contra he; exact h2 ⟨hv, he⟩
        have hex : exact = true := by
          rcases hx with hx | hx
          · exact hx
          · exact absurd hx hv
        rw [if_pos hv]
        cases hg : r.var.get (g "variable") with
        | none =>
          left
          refine ⟨rfl, he, hv, ?_⟩
          intro n ha
          cases ha with
          | equation _ hv' _ => exact hv hv'
          | viaVariable _ _ x hx h' =>
            have := (hs.vars hex _ n).mpr ⟨x, hx, h'⟩
            rw [hg] at this; cases this
        | some n =>
          right
          rw [Option.getD_some]
          obtain ⟨x, hx, hxv⟩ := (hs.vars hex _ n).mp hg
          have hne : n ≠ "" := by
            rintro rfl
            exact hs.named (List.mem_map.mpr ⟨_, hx, rfl⟩)
          exact ⟨hne, .viaVariable he hv x hx hxv⟩
    rcases key with ⟨k1, k2, k3, k4⟩ | ⟨hne, ha⟩
    · rw [if_pos k1]
      exact ⟨.noVariable k2 k3 k4, rfl⟩
    · rw [if_neg hne]
      cases hi : r.idx.get en with
      | none =>
        refine ⟨.noEquation en ha ?_ _ (by simp [String.append_eq_empty_iff]), rfl⟩
        intro hm
        obtain ⟨i, hm⟩ := List.mem_iff_getElem?.mp hm
        rw [(hs.idx en i).mpr hm] at hi; cases hi
      | some i =>
        dsimp only
        have hp := (hs.idx en i).mp hi
        have hlt : i < r.num := by
          rw [hs.num]
          have := (List.getElem?_eq_some_iff.mp hp).1
          simpa using this
        by_cases h0 : r.numNodes = 0
        · rw [if_pos h0]
          exact ⟨.numbers r hr en ha i hp [] (by rw [h0]; rfl) (by intro k hk; omega), rfl⟩
        · rw [if_neg h0, if_neg (not_not.mpr hlt)]
          cases hb : r.base with
          | none => exact ⟨.unsolved r hr en ha (List.mem_of_getElem? hp) hb h0, rfl⟩
          | some b =>
            refine ⟨.numbers r hr en ha i hp _ (by simp) ?_, rfl⟩
            intro k hk
            exact ⟨b, hb, by simp [hk]⟩

/-- C93: the equations of a region have no number in common -/
theorem numbers_disjoint {W : World} {A : Account} {g g' : String → String} {l l' : List Nat} (h : Numbers W A g (.numbers l))
    (h' : Numbers W A g' (.numbers l')) (hd : g' "device" = g "device") (hr : g' "region" = g "region") (hnd : ((A .bulk (g "device") (g "region")).map (·.1)).Nodup) :
    (∃ n, AskedFor A g n ∧ AskedFor A g' n) ∨ ∀ k, k ∈ l → k ∉ l' := by
  cases h with
  | numbers r hr1 n ha i hi l hl hk =>
    cases h' with
    | numbers r' hr2 n' ha' i' hi' l' hl' hk' =>
      rw [hd, hr] at hr2 hi'
      rw [hr1] at hr2; cases hr2
      by_cases hn : n = n'
      · subst hn; exact .inl ⟨n, ha, ha'⟩
      · right
        have hii : i ≠ i' := by
          rintro rfl
          rw [hi] at hi'; cases hi'; exact hn rfl
        intro m hm hm'
        obtain ⟨k, hkm⟩ := List.mem_iff_getElem?.mp hm
        obtain ⟨k', hkm'⟩ := List.mem_iff_getElem?.mp hm'
        have b1 : k < r.numNodes := by rw [← hl]; exact (List.getElem?_eq_some_iff.mp hkm).1
        have b2 : k' < r.numNodes := by rw [← hl']; exact (List.getElem?_eq_some_iff.mp hkm').1
        obtain ⟨b, hb, e1⟩ := hk k b1
        obtain ⟨b', hb', e2⟩ := hk' k' b2
        rw [hb] at hb'; cases hb'
        rw [hkm] at e1; cases e1
        rw [hkm'] at e2
        have e2 := Option.some.inj e2
        rcases Nat.lt_or_gt_of_ne hii with hlt | hlt
        · have : (i + 1) * r.numNodes ≤ i' * r.numNodes := Nat.mul_le_mul_right _ hlt
          rw [Nat.add_mul] at this; omega
        · have : (i' + 1) * r.numNodes ≤ i * r.numNodes := Nat.mul_le_mul_right _ hlt
          rw [Nat.add_mul] at this; omega

theorem keep_of_put {W : World} {d p : String} {r x : Reg} (hr : region? W d p = some r) (hb : x.base = r.base ∧ x.numNodes = r.numNodes) (d' p' : String) :
    (region? (putRegion W d p x) d' p').map (fun r => (r.base, r.numNodes)) = (region? W d' p').map (fun r => (r.base, r.numNodes)) := by
  rw [region_put hr]
  split
  · rename_i h; obtain ⟨rfl, rfl⟩ := h
    rw [hr, Option.map_some, Option.map_some, hb.1, hb.2]
  · rfl

theorem add_keeps {r r' : Reg} {e : BulkEq} (h : r.add e = some r') : r'.base = r.base ∧ r'.numNodes = r.numNodes := by
  unfold Reg.add at h
  split at h
  · cases h; exact ⟨rfl, rfl⟩
  · split at h
    · cases h
    · cases h; exact ⟨rfl, rfl⟩

theorem delete_keeps {r r' : Reg} {e : BulkEq} (h : r.delete e = some r') : r'.base = r.base ∧ r'.numNodes = r.numNodes := by
  unfold Reg.delete at h
  split at h
  · cases h
  · split at h
    · cases h
    · split at h
      · cases h
      · cases h; exact ⟨rfl, rfl⟩

/-- C93: no command of equations changes the number of the first equation of any region: until the next solve the numbers of what was added and
deleted are made with the one of the last solve -/
theorem base_kept (c : Cmd) (W : World) (g : String → String) (d p : String) :
    (region? (act c W g).1 d p).map (fun r => (r.base, r.numNodes)) = (region? W d p).map (fun r => (r.base, r.numNodes)) := by
  have hdel : ∀ del, (region? (deleteEquation del W g).1 d p).map (fun r => (r.base, r.numNodes)) = (region? W d p).map (fun r => (r.base, r.numNodes)) := by
    intro del
    unfold deleteEquation
    dsimp only
    split
    · rfl
    · rename_i r hr
      split
      · rfl
      · split
        · split
          · rfl
          · rename_i r' hd
            exact keep_of_put hr (delete_keeps hd) d p
        · rfl
  have hcdel : ∀ del, region? (deleteContactEquation del W g).1 d p = region? W d p := by
    intro del
    unfold deleteContactEquation
    dsimp only
    split
    · rfl
    · split
      · rfl
      · split
        · exact region_putContact _ _ _ _ _ _
        · rfl
  have hidel : ∀ del, region? (deleteInterfaceEquation del W g).1 d p = region? W d p := by
    intro del
    unfold deleteInterfaceEquation
    dsimp only
    split
    · rfl
    · split
      · rfl
      · split
        · exact region_putInterface _ _ _ _ _ _
        · rfl
  cases c with
  | equation =>
    simp only [act]
    unfold createEquation
    dsimp only
    split
    · rfl
    · rename_i r hr
      split
      · rfl
      · split
        · rfl
        · split
          · rfl
          · rename_i r' ha
            exact keep_of_put hr (add_keeps ha) d p
  | equationList => simp only [act]; unfold equationList; split <;> rfl
  | deleteEquation => exact hdel true
  | equationCommand => exact hdel false
  | equationNumbers =>
    simp only [act]
    unfold equationNumbers
    dsimp only
    split
    · rfl
    · split
      · rfl
      · split
        · rfl
        · split <;> split
          · rfl
          · split
            · rfl
            · split
              · rfl
              · split
                · rfl
                · split <;> rfl
          · rfl
          · split
            · rfl
            · split
              · rfl
              · split
                · rfl
                · split <;> rfl
  | contactEquation =>
    simp only [act]
    unfold createContactEquation
    dsimp only
    split
    · rfl
    · exact congrArg _ (region_putContact _ _ _ _ _ _)
  | contactEquationList => simp only [act]; unfold contactEquationList; split <;> rfl
  | deleteContactEquation => exact congrArg _ (hcdel true)
  | contactEquationCommand => exact congrArg _ (hcdel false)
  | interfaceEquation =>
    simp only [act]
    unfold createInterfaceEquation
    dsimp only
    split
    · rfl
    · rename_i i _
      by_cases he : interfaceModel i (g "device") (g "interface") (g "interface_model") ++
          (if ifType (g "type") = .unknown then "-type must be specified as \"continuous\", \"fluxterm\", or \"hybrid\"\n" else "") ≠ ""
      · rw [if_pos he]
      · rw [if_neg he]
        exact congrArg _ (region_putInterface _ _ _ _ _ _)
  | interfaceEquationList => simp only [act]; unfold interfaceEquationList; split <;> rfl
  | deleteInterfaceEquation => exact congrArg _ (hidel true)
  | interfaceEquationCommand => exact congrArg _ (hidel false)

/-! ### with keywords -/

theorem opts_nodup (L : Lib) (W : World) (c : Cmd) : ((opts L W c).map (·.name)).Nodup := by
  cases c <;> simp [opts, onRegionOpts, onContactOpts, onInterfaceOpts, nameOpt, text]

/-- the options of the commands -/
def keywordsOf (k : Kind) : Verb → List String
  | .create => k.keywords
  | .list => ["device", k.place]
  | _ => ["device", k.place, "name"]

/-- C92: the options of every command, which of them must be given, and what the others are if they are not -/
theorem keywords (L : Lib) (W : World) (k : Kind) (v : Verb) :
    (∀ n, n ∈ (opts L W (cmdOf k v)).map (·.name) ↔ n ∈ keywordsOf k v) ∧
    (∀ o ∈ opts L W (cmdOf k v), o.type = .string ∧ (o.required = true ↔ o.name ∈ ["device", k.place, "name", "variable_name", "type"]) ∧
      (o.required = false → o.default = if o.name = "variable_update" then "default" else "")) := by
  constructor
  · intro n
    cases k <;> cases v <;>
      simp only [cmdOf, opts, onRegionOpts, onContactOpts, onInterfaceOpts, nameOpt, text, keywordsOf, Kind.keywords, Kind.place, List.map_append,
        List.map_cons, List.map_nil, List.cons_append, List.nil_append, List.mem_cons, List.not_mem_nil, or_false] <;> tauto
  · cases k <;> cases v <;>
      simp [cmdOf, opts, onRegionOpts, onContactOpts, onInterfaceOpts, nameOpt, text, Kind.place]

/-- C93: the options of `get_equation_numbers` -/
theorem keywords_numbers (L : Lib) (W : World) : (opts L W .equationNumbers).map (fun o => (o.name, o.required, o.default)) =
    [("device", true, ""), ("region", true, ""), ("variable", false, ""), ("equation", false, "")] := by
  simp [opts, onRegionOpts, text]

/-- C92, C93: a command with its keywords: bad ones are refused and nothing happens; good ones stand for the texts given or the defaults, the
device, the place and the name are there -/
theorem equation_command (L : Lib) (W : World) (c : Cmd) (kw : List (String × Py)) (hk : (kw.map (·.1)).Nodup) (hne : ∀ p ∈ kw, p.1 ≠ "") :
    (¬ PyArg.Good L (opts L W c) kw ∧ ∃ e, run L W c kw = (W, .badArgs e)) ∨
    (PyArg.Good L (opts L W c) kw ∧ ∃ g : String → String, (∀ n ∈ (opts L W c).map (·.name), Text L (opts L W c) kw n (g n)) ∧
      run L W c kw = act c W g) := by
  unfold run
  cases hp : PyArg.processOptions L (opts L W c) kw with
  | error e => exact .inl ⟨not_good (opts_nodup L W c) hk hne hp, e, rfl⟩
  | ok sel =>
    refine .inr ⟨(PyArg.options_accepted_iff L _ (opts_nodup L W c) kw hk hne).mp ⟨sel, hp⟩, _, ?_, rfl⟩
    intro n hn
    obtain ⟨v, hv, hm, _⟩ := text_of (opts_nodup L W c) hk hne hp hn
    exact ⟨v, hm, by simp [PyArg.stringOption, hv]⟩

theorem text_unique {L : Lib} {opts : List Opt} (hd : (opts.map (·.name)).Nodup) {kw : List (String × Py)} (hk : (kw.map (·.1)).Nodup)
    {n s s' : String} (h : Text L opts kw n s) (h' : Text L opts kw n s') : s = s' := by
  obtain ⟨v, hm, rfl⟩ := h
  obtain ⟨v', hm', rfl⟩ := h'
  have : v = v' := by
    cases hm with
    | given _ h1 =>
      cases hm' with
      | given _ h2 => exact (Prod.mk.inj (List.inj_on_of_nodup_map hk h1 h2 rfl)).2
      | default _ _ _ h2 => exact absurd h1 (h2 _)
    | default o ho hn h1 =>
      cases hm' with
      | given _ h2 => exact absurd h2 (h1 _)
      | default o' ho' hn' h2 =>
        have := List.inj_on_of_nodup_map hd ho ho' (hn.trans hn'.symm)
        rw [this]
  rw [this]

theorem held_text {L : Lib} {opts : List Opt} {kw : List (String × Py)} {h : String → Option Py} (hh : ∀ n v, h n = some v ↔ Means opts kw n v)
    {n s : String} (hd : (opts.map (·.name)).Nodup) (hk : (kw.map (·.1)).Nodup) (ht : Text L opts kw n s) : held L h n = s := by
  obtain ⟨v, hm, rfl⟩ := ht
  simp [held, (hh n v).mpr hm]

/-- the checks see to it that the place is there and that the name is not empty -/
theorem good_there {L : Lib} {W : World} {k : Kind} {v : Verb} {kw : List (String × Py)} (hk : (kw.map (·.1)).Nodup)
    (hg : PyArg.Good L (opts L W (cmdOf k v)) kw) {d p : String} (hd : Text L (opts L W (cmdOf k v)) kw "device" d)
    (hp : Text L (opts L W (cmdOf k v)) kw k.place p) :
    There W d p k ∧ (v ≠ .list → ∀ n, Text L (opts L W (cmdOf k v)) kw "name" n → n ≠ "") := by
  have hnd := opts_nodup L W (cmdOf k v)
  constructor
  · cases k with
    | bulk =>
      have hm : (⟨"region", "", .string, true, some (validRegion L W)⟩ : Opt) ∈ opts L W (cmdOf .bulk v) := by
        cases v <;> simp [cmdOf, opts, onRegionOpts]
      obtain ⟨h, hc, hh⟩ := hg.checked _ hm _ rfl
      have := of_decide_eq_true hc
      obtain ⟨_, _, h3⟩ := this
      have e1 := held_text hh hnd hk hd
      have e2 := held_text hh hnd hk hp
      simp only [Kind.place] at e2
      dsimp only at h3
      rw [e1, e2] at h3
      exact Option.isSome_iff_exists.mp h3
    | contact =>
      have hm : (⟨"contact", "", .string, true, some (validContact L W)⟩ : Opt) ∈ opts L W (cmdOf .contact v) := by
        cases v <;> simp [cmdOf, opts, onContactOpts]
      obtain ⟨h, hc, hh⟩ := hg.checked _ hm _ rfl
      have := of_decide_eq_true hc
      obtain ⟨_, _, h3⟩ := this
      have e1 := held_text hh hnd hk hd
      have e2 := held_text hh hnd hk hp
      simp only [Kind.place] at e2
      dsimp only at h3
      rw [e1, e2] at h3
      exact Option.isSome_iff_exists.mp h3
    | interface =>
      have hm : (⟨"interface", "", .string, true, some (validInterface L W)⟩ : Opt) ∈ opts L W (cmdOf .interface v) := by
        cases v <;> simp [cmdOf, opts, onInterfaceOpts]
      obtain ⟨h, hc, hh⟩ := hg.checked _ hm _ rfl
      have := of_decide_eq_true hc
      obtain ⟨_, _, h3⟩ := this
      have e1 := held_text hh hnd hk hd
      have e2 := held_text hh hnd hk hp
      simp only [Kind.place] at e2
      dsimp only at h3
      rw [e1, e2] at h3
      exact Option.isSome_iff_exists.mp h3
  · intro hv n hn
    have hm : nameOpt L ∈ opts L W (cmdOf k v) := by
      cases k <;> cases v <;> first | (exact absurd rfl hv) | simp [cmdOf, opts, nameOpt, text]
    obtain ⟨h, hc, hh⟩ := hg.checked _ hm _ rfl
    obtain ⟨v', hm', rfl⟩ := hn
    have h1 := (hh "name" v').mpr hm'
    simp only [nameOpt, Verif.SetVals.notEmpty, h1] at hc
    exact of_decide_eq_true hc

end Verif.EqCmd
