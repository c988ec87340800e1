import Verif.Props.Lookup

/-!
# A written entry and its links, as data (C81)
-/

namespace Tavi

open Spec

/-- What is stored at a path, as it is read from a file. -/
def shown (z : Option (Option Leaf × (Str → Option Leaf))) : Option (Option Leaf × (Str → Option Leaf)) :=
  z.map fun z => (z.1.map readLeaf, z.2)

theorem attrIn_attrList {a : Dict} (ha : AttrDict a) (x : Str) : attrIn a x = lookupKey x (attrList a) := by
  induction ha with
  | nil => rfl
  | @cons k v rest _ _ ih =>
    rw [attrIn, Dict.get?, attrList, lookupKey]
    by_cases h : k = x
    · rw [if_pos h, if_pos h]
    · rw [if_neg h, if_neg h, ← ih, attrIn]

theorem Tidy.attrs_dict {d : Dict} (hd : Tidy d) : d.get? kAttrs = none ∨ ∃ a, d.get? kAttrs = some (.dict a) ∧ AttrDict a := by
  induction hd with
  | nil => exact .inl rfl
  | attrs ha _ _ _ => exact .inr ⟨_, by rw [Dict.get?, if_pos rfl], ha⟩
  | data hk _ _ _ ih => rw [Dict.get?, if_neg hk.1]; exact ih
  | group hk _ _ _ _ ih => rw [Dict.get?, if_neg hk.1]; exact ih

theorem attrOf_eq {d : Dict} (hd : d.get? kAttrs = none ∨ ∃ a, d.get? kAttrs = some (.dict a) ∧ AttrDict a) :
    attrOf d = fun x => lookupKey x (ownAttrs d) := by
  funext x
  rcases hd with h | ⟨a, h, ha⟩
  · rw [attrOf, ownAttrs, h]; rfl
  · rw [attrOf, ownAttrs, h]; exact attrIn_attrList ha x

theorem ds_dataOf {e : Dict} {v : Leaf} (h : Ds e v) : dataOf e = some v := by
  obtain ⟨_, rfl | ⟨a, ha, rfl | rfl⟩⟩ := h <;> rfl

theorem ds_attrs {e : Dict} {v : Leaf} (h : Ds e v) : e.get? kAttrs = none ∨ ∃ a, e.get? kAttrs = some (.dict a) ∧ AttrDict a := by
  obtain ⟨_, rfl | ⟨a, ha, rfl | rfl⟩⟩ := h
  · exact .inl rfl
  · exact .inr ⟨a, rfl, ha⟩
  · exact .inr ⟨a, rfl, ha⟩

theorem view_nodeOf_tidy {d : Dict} (hd : Tidy d ∨ ∃ v, Ds d v) (p : List Str) : (nodeOf d).view p = shown (view d p) := by
  induction p generalizing d with
  | nil =>
    have ha : attrOf d = fun x => lookupKey x (ownAttrs d) := by
      rcases hd with h | ⟨v, h⟩
      · exact attrOf_eq h.attrs_dict
      · exact attrOf_eq (ds_attrs h)
    rw [nodeOf, H5.view, view, shown, Option.map_some, ha]
  | cons k p ih =>
    rw [view]
    rcases hd with hd | ⟨v, hv⟩
    · rw [tidy_node hd, H5.view]
      by_cases hk : k = "attrs".toList ∨ k = "dataset".toList
      · rw [if_pos hk, if_pos hk]; rfl
      · have hk' : Plain k := not_or.1 hk
        rw [if_neg hk, if_neg hk, kids_get hk']
        cases hg : d.get? k with
        | none => rfl
        | some u =>
          obtain ⟨e', rfl, he'⟩ := hd.sub hk' hg
          rw [Option.map_some, nodeVal_dict]
          exact ih he'.symm
    · rw [ds_kids hv, H5.view]
      split
      · rfl
      · rename_i hk
        rw [ds_no_member hv (not_or.1 hk)]; rfl

theorem eff_tidy {d : Dict} (ht : Tidy d) {val : Str} {o : Option (List Str)} (h : AxisOf d val o) : Eff (nodeOf d) val o := by
  cases h with
  | @found q v A ho hv =>
    obtain ⟨n, hn⟩ := view_at_exists ht ho.path_plain hv
    refine .found (findIn_only ht ho) ho.path_plain ho.not_data hn (isDataset_view (v := readLeaf v) (A := A) ?_)
    rw [← view_at ho.path_plain hn, List.append_nil, view_nodeOf_tidy (.inl ht), hv]; rfl
  | nowhere h =>
    refine .nowhere (findIn_absent ht fun q e hq hw => ?_)
    have := h q hq
    rw [walk_view (fun k hk => (hq k hk).1) hw, view] at this
    exact absurd this (by simp)
  | @gone q ho hv => exact .gone (findIn_only ht ho) ho.path_plain ho.not_data (by rw [view_nodeOf_tidy (.inl ht), hv]; rfl)

/-! ## The links only set attributes -/

theorem normHs_empty {ch : H5s} (h : normHs ch = .nil) {k : Str} (hk : k ≠ kAttrs) : ch.get? k = none := by
  have := normHs_get ch hk
  rw [h] at this
  cases hc : ch.get? k with
  | none => rfl
  | some n => rw [hc] at this; exact absurd this (by simp [Dict.get?])

theorem normH_data_child {g data : H5} (hd : g.at [kData] = some data) : (normH g).get? kData = some (.dict (normH data)) := by
  cases g with
  | node v a ch =>
    cases v with
    | some v => rw [H5.at] at hd; exact absurd hd (by simp)
    | none => rw [normH_group, normHs_get ch (by decide), show ch.get? kData = some data from at_data hd]; rfl

theorem normH_linked {g data : H5} {pre name val : Str} {p : List Str} (hd : g.at [kData] = some data) (hds : data.isDataset = false)
    (hfresh : normH data = .nil) (hv : val ≠ kAttrs) (hp : ∀ k ∈ p, k ≠ kAttrs) : normH (linkedEntry pre name val p g) = normH g := by
  rw [linkedEntry, normH_modify _ (fun t => normH_setAttr t _ _) _ _ hp, modify_erase_none (at_data hd)]
  cases data with
  | node v a ch =>
    cases v with
    | some v => exact absurd hds (by simp [H5.isDataset])
    | none => rw [normH_group] at hfresh; exact normHs_empty hfresh hv

/-- One link of a new entry. -/
theorem linkFound_norm {a : List (Str × Leaf)} {ch : H5s} {links : List Link} {pre name : Str} {g g' : H5} {L : List (Str × List Str)}
    (hg : ch.get? name = some g') (hm : Made2 pre name g g' L) {val : Str} {o : Option (List Str)} (ho : Eff g val o)
    (hval : val ≠ kAttrs) (hL : ∀ z ∈ L, val ≠ z.1) (hl : ∀ l ∈ links, l.entry = name → l.name ≠ val) {data : H5}
    (hd : g'.at [kData] = some data) (hfresh : normH data = .nil)
    (hroom : ∀ n, g.at [kData, val] = some n → n.isDataset = true) :
    ∃ g'', linkFound pre name (findAxis (.str val) g) ⟨.node none a ch, links⟩ =
        .ok ⟨.node none a (ch.set name g''), links ++ (effLinks val o).map fun z => ⟨name, z.1, z.2⟩⟩ ∧
      Made2 pre name g g'' (L ++ effLinks val o) ∧ normH g'' = normH g' ∧
      ∃ data', g''.at [kData] = some data' ∧ normH data' = .nil := by
  obtain ⟨g'', h1, h2⟩ := linkFound_ok (a := a) hg hm ho hL hl hroom
  have hnorm : normH g'' = normH g' := by
    obtain ⟨dg0, dg', hdg0, hdg', hgrp, hch⟩ := hm.data
    obtain rfl := Option.some.inj (hdg'.symm.trans hd)
    have hax : findAxis (.str val) g = (findIn val g).map fun p => (val, p) := rfl
    cases ho with
    | @found p n hf hpl hnd hn hds =>
      obtain ⟨n', hn', _, _⟩ := hm.sets p n hnd hn hds
      have e := linkAxis_ok (a := a) (links := links) (pre := pre) (name := name) (val := val) (p := p) hg (by rw [hn']; rfl) (at_data hdg') hgrp
        (by
          intro m hmm
          exfalso
          cases dg' with
          | node v b c =>
            cases v with
            | some v => exact absurd hgrp (by simp [H5.isDataset])
            | none =>
              rw [normH_group] at hfresh
              exact absurd (normHs_empty hfresh hval) (by rw [show c.get? val = some m from hmm]; simp))
        (by
          rw [NxFile.link?, List.find?_eq_none]
          intro l hl' hc
          have := of_decide_eq_true hc
          exact hl l hl' this.1 this.2)
      rw [hax, hf] at h1
      have h1' : linkAxis pre name val p ⟨.node none a ch, links⟩ = _ := h1
      rw [e] at h1'
      have h3 := congrArg NxFile.tree (Except.ok.inj h1')
      have h4 : ch.set name (linkedEntry pre name val p g') = ch.set name g'' := by injection h3
      have h5 := congrArg (fun c : H5s => c.get? name) h4
      rw [H5s.get?_set, if_pos rfl, H5s.get?_set, if_pos rfl] at h5
      rw [← Option.some.inj h5]
      exact normH_linked hdg' hgrp hfresh hval fun k hk => (hpl k hk).1
    | nowhere hf =>
      rw [hax, hf] at h1
      have h3 := congrArg NxFile.tree (Except.ok.inj (show Except.ok _ = _ from h1))
      have h4 : ch = ch.set name g'' := by injection h3
      rw [h4, H5s.get?_set, if_pos rfl] at hg
      rw [Option.some.inj hg]
    | @gone p hf hpl hnd hv =>
      rw [hax, hf] at h1
      have h5 : g'.at p = none := by
        refine at_none_of_view hpl ?_
        have := (hm.view p fun z _ hz => hnd ((show [kData] <+: [kData, z.1] from ⟨[z.1], rfl⟩).trans hz)).1
        rw [hv] at this
        cases hc : g'.view p with
        | none => rfl
        | some z => rw [hc] at this; exact absurd this (by simp)
      have he : (NxFile.mk (.node none a ch) links).entry name = some g' := hg
      have h1' : linkAxis pre name val p ⟨.node none a ch, links⟩ = _ := h1
      unfold linkAxis at h1'
      rw [he] at h1'
      dsimp only at h1'
      rw [h5, if_pos Option.isNone_none] at h1'
      have h3 := congrArg NxFile.tree (Except.ok.inj h1')
      have h4 : ch = ch.set name g'' := by injection h3
      rw [h4, H5s.get?_set, if_pos rfl] at hg
      rw [Option.some.inj hg]
  refine ⟨g'', h1, h2, hnorm, ?_⟩
  obtain ⟨_, dg'', _, hdg'', _⟩ := h2.data
  refine ⟨dg'', hdg'', ?_⟩
  have e1 := normH_data_child hdg''
  rw [hnorm, normH_data_child hd, hfresh] at e1
  injection e1 with e1
  injection e1 with e1
  exact e1.symm

/-- Both links of a new entry whose plot group is empty. -/
theorem makeLinks_norm {a : List (Str × Leaf)} {ch : H5s} {links : List Link} {pre name : Str} {g dg : H5}
    (hg : ch.get? name = some g) (hdg : g.at [kData] = some dg) (hgrp : dg.isDataset = false) (hfresh : normH dg = .nil)
    {x y : Str} {ox oy : Option (List Str)} (hxp : x ≠ kAttrs) (hyp : y ≠ kAttrs)
    (hy : lookupKey "signal".toList dg.attrs = some (.str y)) (hx : lookupKey "axes".toList dg.attrs = some (.str x))
    (hxy : x ≠ y) (hoy : Eff g y oy) (hox : Eff g x ox) (hl : ∀ l ∈ links, l.entry ≠ name) :
    ∃ g', makeLinks pre name ⟨.node none a ch, links⟩ =
        .ok ⟨.node none a (ch.set name g'), links ++ (effLinks y oy ++ effLinks x ox).map fun z => ⟨name, z.1, z.2⟩⟩ ∧
      Made2 pre name g g' (effLinks y oy ++ effLinks x ox) ∧ normH g' = normH g := by
  have hroom : ∀ k n, k ≠ kAttrs → g.at [kData, k] = some n → n.isDataset = true := by
    intro k n hk hn
    exfalso
    cases g with
    | node gv ga gch =>
      cases gv with
      | some gv => rw [H5.at] at hdg; exact absurd hdg (by simp)
      | none =>
        rw [H5.at, show gch.get? kData = some dg from at_data hdg, Option.bind_some] at hn
        cases dg with
        | node dv da dch =>
          cases dv with
          | some dv => exact absurd hgrp (by simp [H5.isDataset])
          | none =>
            rw [normH_group] at hfresh
            rw [H5.at, normHs_empty hfresh hk] at hn
            exact absurd hn (by simp)
  obtain ⟨g1, h1, hm1, hn1, data1, hd1, hf1⟩ := linkFound_norm (a := a) (links := links) hg (Made2.refl pre name hdg hgrp) hoy hyp (by simp)
    (fun l hl' he => absurd he (hl l hl')) hdg hfresh (fun n => hroom y n hyp)
  rw [List.nil_append] at hm1
  obtain ⟨g2, h2, hm2, hn2, _⟩ := linkFound_norm (a := a) (ch := ch.set name g1)
    (links := links ++ (effLinks y oy).map fun z => ⟨name, z.1, z.2⟩) (by rw [H5s.get?_set, if_pos rfl]) hm1 hox hxp
    (by
      intro z hz
      cases oy with
      | none => exact absurd hz (by simp [effLinks])
      | some p => rw [List.mem_singleton.1 hz]; exact hxy)
    (by
      intro l hl' he
      rcases List.mem_append.1 hl' with h | h
      · exact absurd he (hl l h)
      · obtain ⟨z, hz, rfl⟩ := List.mem_map.1 h
        cases oy with
        | none => exact absurd hz (by simp [effLinks])
        | some p => rw [List.mem_singleton.1 hz]; exact Ne.symm hxy) hd1 hf1
    (fun n => hroom x n hxp)
  refine ⟨g2, ?_, hm2, hn2.trans hn1⟩
  have he : (NxFile.mk (.node none a ch) links).entry name = some g := hg
  unfold makeLinks
  rw [he]
  dsimp only
  rw [at_data hdg]
  dsimp only
  rw [hy, need_some, py_bind_ok, hx, need_some, py_bind_ok, h1, py_bind_ok, h2, H5s.set_set, List.map_append, List.append_assoc]

/-! ## Reading the links -/

/-- Members of the plot group. -/
def plotted (g' : H5) (own : List (Str × List Str)) (M : Dict) : Dict :=
  own.foldl (fun M z => match g'.at z.2 with | some n => M.set z.1 (.dict (normH n)) | none => M) M

theorem normH_fill {t dg : H5} (h : t.at [kData] = some dg) (hd : dg.isDataset = false) {k : Str} (hk : k ≠ kAttrs) (n : H5) :
    normH (t.modify (fun t => t.setChild k n) [kData]) = (normH t).set kData (.dict ((normH dg).set k (.dict (normH n)))) := by
  cases t with
  | node v a ch =>
    cases v with
    | some v => rw [H5.at] at h; exact absurd h (by simp)
    | none =>
      rw [modify_node _ none a ch kData [] (at_data h), H5.modify, normH_group, normH_group, normHs_set ch (by decide)]
      cases dg with
      | node dv da dch =>
        cases dv with
        | some dv => exact absurd hd (by simp [H5.isDataset])
        | none => rw [H5.setChild, normH_group, normHs_set dch hk, normH_group]

theorem normH_links (f : NxFile) {a : List (Str × Leaf)} {ch : H5s} (hf : f.tree = .node none a ch) {name : Str} {g' : H5}
    (hg : ch.get? name = some g') (own : List (Str × List Str)) (hpl : ∀ z ∈ own, z.1 ≠ kAttrs)
    (hat : ∀ z ∈ own, ∃ n, g'.at z.2 = some n) :
    ∀ (t dg : H5), t.at [kData] = some dg → dg.isDataset = false →
      normH ((own.map fun z => Link.mk name z.1 z.2).foldl (linkInto f name) t) =
        (normH t).set kData (.dict (plotted g' own (normH dg))) := by
  induction own with
  | nil => intro t dg h _; rw [plotted, List.map_nil, List.foldl_nil, List.foldl_nil, Dict.set_same _ (normH_data_child h)]
  | cons z0 own ih =>
    intro t dg h hd
    obtain ⟨n0, hn0⟩ := hat z0 (by simp)
    have ht : f.target ⟨name, z0.1, z0.2⟩ = some n0 := by
      rw [NxFile.target, hf, H5.at, hg, Option.bind_some, hn0]
    have hstep : linkInto f name t ⟨name, z0.1, z0.2⟩ = t.modify (fun t => t.setChild z0.1 n0) [kData] := by
      unfold linkInto
      rw [if_pos rfl, ht]
    have hz := hpl z0 (by simp)
    have hc : normH (dg.setChild z0.1 n0) = (normH dg).set z0.1 (.dict (normH n0)) := by
      cases dg with
      | node dv da dch =>
        cases dv with
        | some dv => exact absurd hd (by simp [H5.isDataset])
        | none => rw [H5.setChild, normH_group, normHs_set dch hz, normH_group]
    rw [List.map_cons, List.foldl_cons, hstep, ih (fun z hz => hpl z (by simp [hz])) (fun z hz => hat z (by simp [hz])) _ _
      (at_setChild h z0.1 n0) (by rw [isDataset_setChild]; exact hd), normH_fill h hd hz, Dict.set_set, hc]
    conv_rhs => rw [plotted, List.foldl_cons, hn0]
    rfl

theorem resolved_single (f : NxFile) {a : List (Str × Leaf)} {name : Str} {g : H5}
    (h : f.tree = .node none a (.cons name g .nil)) :
    f.resolved = .node none a (.cons name (f.links.foldl (linkInto f name) g) .nil) := by
  have key : ∀ (ls : List Link) (g : H5),
      ls.foldl (fun t l => match f.target l with | some n => addLink l.entry l.name n t | none => t)
        (.node none a (.cons name g .nil)) = .node none a (.cons name (ls.foldl (linkInto f name) g) .nil) := by
    intro ls
    induction ls with
    | nil => exact fun g => rfl
    | cons l ls ih =>
      intro g
      rw [List.foldl_cons, List.foldl_cons]
      cases ht : f.target l with
      | none =>
        have : linkInto f name g l = g := by
          unfold linkInto
          split
          · rw [ht]
          · rfl
        rw [this]
        exact ih g
      | some n =>
        dsimp only
        rw [addLink]
        by_cases he : l.entry = name
        · have e1 : (H5s.cons name g .nil).get? l.entry = some g := by rw [H5s.get?, if_pos he.symm]
          have e2 : linkInto f name g l = g.modify (fun t => t.setChild l.name n) [kData] := by
            unfold linkInto
            rw [if_pos he, ht]
          rw [modify_node _ none a _ l.entry [kData] e1, H5s.set, if_pos he.symm, ih, e2]
        · have e1 : (H5s.cons name g .nil).get? l.entry = none := by
            rw [H5s.get?, if_neg (Ne.symm he)]; rfl
          have e2 : linkInto f name g l = g := by unfold linkInto; rw [if_neg he]
          rw [H5.modify, e1, ih, e2]
  rw [NxFile.resolved, h]
  exact key f.links g

theorem plotted_get (g' : H5) : ∀ (own : List (Str × List Str)), (own.map Prod.fst).Nodup → ∀ M,
    (∀ k, k ∉ own.map Prod.fst → (plotted g' own M).get? k = M.get? k) ∧
    ∀ z ∈ own, ∀ n, g'.at z.2 = some n → (plotted g' own M).get? z.1 = some (.dict (normH n))
  | [], _, M => ⟨fun _ _ => rfl, fun z hz => absurd hz (by simp)⟩
  | z0 :: own, hnd, M => by
    rw [List.map_cons, List.nodup_cons] at hnd
    have ih := plotted_get g' own hnd.2
    have e : plotted g' (z0 :: own) M = plotted g' own (match g'.at z0.2 with | some n => M.set z0.1 (.dict (normH n)) | none => M) := rfl
    rw [e]
    refine ⟨fun k hk => ?_, fun z hz n hn => ?_⟩
    · rw [List.map_cons, List.mem_cons, not_or] at hk
      rw [(ih _).1 k hk.2]
      split
      · rw [get?_set, if_neg (Ne.symm hk.1)]
      · rfl
    · rcases List.mem_cons.1 hz with rfl | hz
      · rw [(ih _).1 z.1 hnd.1, hn]
        dsimp only
        rw [get?_set, if_pos rfl]
      · exact (ih _).2 z hz n hn

theorem keys_fold (g' : H5) : ∀ (own : List (Str × List Str)) (M : Dict), M.keys.Nodup → (plotted g' own M).keys.Nodup
  | [], M, h => h
  | z0 :: own, M, h => by
    have e : plotted g' (z0 :: own) M = plotted g' own (match g'.at z0.2 with | some n => M.set z0.1 (.dict (normH n)) | none => M) := rfl
    rw [e]
    refine keys_fold g' own _ ?_
    split
    · exact nodup_keys_set h _ _
    · exact h

theorem empty_data {e : Dict} (he : Tidy e) (h : ∀ k, view e [k] = none) : norm e = .nil := by
  induction he with
  | nil => rfl
  | attrs ha hr hrest ih =>
    rw [norm, if_pos rfl]
    refine ih fun k => ?_
    by_cases hk : Plain k
    · have := h k
      rw [view, if_neg (not_or.2 hk), Dict.get?, if_neg (Ne.symm hk.1)] at this
      rw [view, if_neg (not_or.2 hk)]
      exact this
    · rw [view, if_pos (by unfold Plain at hk; tauto)]
  | @data k e v rest hk he hr hrest ih =>
    have := h k
    rw [view, if_neg (not_or.2 hk), Dict.get?, if_pos rfl] at this
    exact absurd this (by simp [view])
  | @group k e rest hk he hr hrest ih1 ih2 =>
    have := h k
    rw [view, if_neg (not_or.2 hk), Dict.get?, if_pos rfl] at this
    exact absurd this (by simp [view])

/-- A new entry with an empty plot group, written and read. -/
theorem written_in (pre : Str) {d : Dict} (ht : Tidy d) {name : Str} {f : NxFile} {a : List (Str × Leaf)} {ch : H5s}
    (hf : f.tree = .node none a ch) (hnew : ch.get? name = none) (hl : ∀ l ∈ f.links, l.entry ≠ name) {x y : Str}
    {ox oy : Option (List Str)} {A : Str → Option Leaf} (hdata : view d ["data".toList] = some (none, A))
    (hy : A "signal".toList = some (.str y)) (hx : A "axes".toList = some (.str x)) (hxy : x ≠ y)
    (hax : AxisOf d x ox) (hay : AxisOf d y oy) (hxp : x ≠ kAttrs) (hyp : y ≠ kAttrs)
    (hempty : ∀ k, view d ["data".toList, k] = none) :
    ∃ f' r t M, toNexusIn pre d name f = .ok f' ∧ NewEntry name f f' ∧ fromNexusFile f' none = .ok r ∧ r.get? name = some (.dict (readNode t)) ∧
      (ch = .nil → r = .cons name (.dict (readNode t)) .nil) ∧ t.isDataset = false ∧
      (∀ p, (ox.isSome → ¬ ["data".toList, x] <+: p) → (oy.isSome → ¬ ["data".toList, y] <+: p) →
        SameBut (view (readNode t) p) (shown (view d p))) ∧
      norm (readNode t) = (norm d).set kData (.dict M) ∧ (norm d).get? kData = some (.dict .nil) ∧ Bare M ∧
      (∀ k, k ≠ x → k ≠ y → M.get? k = none) ∧
      (∀ k o, (k = x ∧ o = ox) ∨ (k = y ∧ o = oy) → (o = none → M.get? k = none) ∧
        ∀ p, o = some p → ∃ v B, view d p = some (some v, B) ∧ M.get? k = some (.dict (bareDs v))) := by
  have hdp : ∀ k ∈ [kData], Plain k := by simp [plain_data]
  obtain ⟨ed, hwd⟩ := view_walk hdata
  obtain ⟨hdg, hed⟩ := at_nodeOf (.inl ht) hdp hwd
  have hved : view ed [] = some (none, A) := by rw [← walk_view hdp hwd]; exact hdata
  have hedt : Tidy ed := by
    rcases hed with h | ⟨v, h⟩
    · exact h
    · exfalso
      rw [view] at hved
      have h1 := (Prod.mk.inj (Option.some.inj hved)).1
      rw [ds_dataOf h] at h1
      exact absurd h1 (by simp)
  have hgd : d.get? kData = some (.dict ed) := by
    rw [walk] at hwd
    split at hwd
    · rename_i e' he'
      rw [walk] at hwd
      rw [he', Option.some.inj hwd]
    · exact absurd hwd (by simp)
  have hnil : norm ed = .nil := empty_data hedt fun k => by
    have := hempty k
    rw [view, if_neg (by decide)] at this
    rw [show d.get? "data".toList = some (.dict ed) from hgd] at this
    exact this
  set dg := nodeOf ed with hdgdef
  have hgrp : dg.isDataset = false := by rw [hdgdef, tidy_node hedt]; rfl
  have hfresh : normH dg = .nil := by rw [hdgdef, normH_nodeOf hedt, hnil]
  have hattr : ∀ k, lookupKey k dg.attrs = A k := by
    intro k
    have h1 := (Prod.mk.inj (Option.some.inj hved)).2
    rw [← h1, attrOf_eq hedt.attrs_dict, hdgdef]; rfl
  have hg0 : (ch.set name (nodeOf d)).get? name = some (nodeOf d) := by rw [H5s.get?_set, if_pos rfl]
  obtain ⟨g', hmk, hm, hnorm⟩ := makeLinks_norm (a := a) (links := f.links) (pre := pre) hg0 hdg hgrp hfresh hxp hyp ((hattr _).trans hy)
    ((hattr _).trans hx) hxy (eff_tidy ht hay) (eff_tidy ht hax) hl
  rw [H5s.set_set] at hmk
  set own := effLinks y oy ++ effLinks x ox with hown
  have hmem : ∀ z, z ∈ own ↔ (z.1 = y ∧ oy = some z.2) ∨ (z.1 = x ∧ ox = some z.2) := by
    intro z
    rw [hown, List.mem_append]
    refine or_congr ?_ ?_
    · cases oy with
      | none => simp [effLinks]
      | some p =>
        rw [effLinks, Option.map_some, Option.toList_some, List.mem_singleton]
        exact ⟨fun h => by rw [h]; exact ⟨rfl, rfl⟩, fun h => Prod.ext h.1 (Option.some.inj h.2).symm⟩
    · cases ox with
      | none => simp [effLinks]
      | some p =>
        rw [effLinks, Option.map_some, Option.toList_some, List.mem_singleton]
        exact ⟨fun h => by rw [h]; exact ⟨rfl, rfl⟩, fun h => Prod.ext h.1 (Option.some.inj h.2).symm⟩
  have hplain : ∀ z ∈ own, Plain z.1 := by
    intro z hz
    rcases List.mem_append.1 hz with hz | hz
    · exact axis_plain hay z hz
    · exact axis_plain hax z hz
  have hnodup : (own.map Prod.fst).Nodup := by
    rw [hown]
    cases oy <;> cases ox <;> simp [effLinks, Ne.symm hxy]
  have hwrite : writeEntry d name f = .ok ⟨.node none a (ch.set name (nodeOf d)), f.links⟩ := by
    unfold writeEntry
    rw [hf, toNexus_new ht hnew, py_bind_ok]
    split
    · rw [overwriteLinks_none name _ f hl, py_bind_ok]
    · rw [py_bind_ok]
  set F : NxFile := ⟨.node none a (ch.set name g'), f.links ++ own.map fun z => ⟨name, z.1, z.2⟩⟩ with hF
  obtain ⟨ch', hr1, hr2⟩ := resolved_entry F (a := a) (ch := ch.set name g') rfl
  have hgN : (ch.set name g').get? name = some g' := by rw [H5s.get?_set, if_pos rfl]
  obtain ⟨dg0, dg', hdg0, hdg', hgrp', _⟩ := hm.data
  have hfold : F.links.foldl (linkInto F name) g' = (own.map fun z => Link.mk name z.1 z.2).foldl (linkInto F name) g' := by
    rw [hF, List.foldl_append, linkInto_other _ name f.links hl]
  set G := (own.map fun z => Link.mk name z.1 z.2).foldl (linkInto F name) g' with hG
  obtain ⟨hv1, _⟩ := view_links F (a := a) rfl hgN own hnodup hplain
    (fun z hz => by obtain ⟨n', h, _⟩ := hm.tgt z hz; exact ⟨n', h⟩) g' dg' hdg' hgrp'
  have hdg'n : normH dg' = .nil := by
    have e1 := normH_data_child hdg'
    rw [hnorm, normH_data_child hdg, hfresh] at e1
    injection e1 with e1
    injection e1 with e1
    exact e1.symm
  have hpg := plotted_get g' own hnodup (normH dg')
  refine ⟨F, readMembers ch', G, plotted g' own (normH dg'), ?_, ?_, ?_, ?_, ?_, ?_, ?_, ?_, ?_, ?_, ?_, ?_⟩
  · rw [toNexusIn, hwrite, py_bind_ok, hmk]
  · exact newEntry_mk hf own
  · rw [fromNexusFile, hr1]; rfl
  · rw [get?_readMembers, hr2 name, hgN, Option.map_some, Option.map_some, hfold]
  · rintro rfl
    have := resolved_single F (a := a) (name := name) (g := g') rfl
    rw [hr1] at this
    have h2 : ch' = .cons name (F.links.foldl (linkInto F name) g') .nil := by injection this
    rw [h2, readMembers, readMembers, hfold]
  · have h1 := (hm.view [] fun z _ h => by simp at h).1
    have h2 := hv1 [] fun z _ h => by simp at h
    rw [← h2, view_nodeOf_tidy (.inl ht), view, show dataOf d = none by rw [dataOf, show d.get? "dataset".toList = none from ht.not_has]] at h1
    rw [← hG] at h1
    clear_value G
    cases G with
    | node w b c =>
      cases w with
      | none => rfl
      | some w => exact absurd h1 (by simp [H5.view, shown])
  · intro p hpx hpy
    have hno : ∀ z ∈ own, ¬ [kData, z.1] <+: p := by
      intro z hz
      rcases (hmem z).1 hz with ⟨h1, h2⟩ | ⟨h1, h2⟩
      · rw [h1]; exact hpy (by rw [h2]; rfl)
      · rw [h1]; exact hpx (by rw [h2]; rfl)
    rw [view_readNode, hv1 p hno, ← view_nodeOf_tidy (.inl ht)]
    exact hm.view p hno
  · have := normH_links F (a := a) rfl hgN own (fun z hz => (hplain z hz).1)
      (fun z hz => by obtain ⟨n', h, _⟩ := hm.tgt z hz; exact ⟨n', h⟩) g' dg' hdg' hgrp'
    rw [hnorm, normH_nodeOf ht] at this
    exact this
  · rw [get?_norm d (by decide), hgd, Option.map_some, normV, hnil]
  · intro k v hkv
    have hk : (plotted g' own (normH dg')).get? k = some v :=
      get?_of_mem (keys_fold g' own _ (by rw [hdg'n]; exact List.nodup_nil)) hkv
    by_cases hko : k ∈ own.map Prod.fst
    · obtain ⟨z, hz, rfl⟩ := List.mem_map.1 hko
      obtain ⟨n', hn', hds', _⟩ := hm.tgt z hz
      rw [hpg.2 z hz n' hn'] at hk
      cases n' with
      | node w b c =>
        cases w with
        | none => exact absurd hds' (by simp [H5.isDataset])
        | some w => exact ⟨w, by rw [← Option.some.inj hk, normH_data]⟩
    · rw [hpg.1 k hko, hdg'n] at hk
      exact absurd hk (by simp [Dict.get?])
  · intro k hkx hky
    rw [hpg.1 k ?_, hdg'n]
    · rfl
    · intro hc
      obtain ⟨z, hz, rfl⟩ := List.mem_map.1 hc
      rcases (hmem z).1 hz with ⟨h, _⟩ | ⟨h, _⟩
      · exact hky h
      · exact hkx h
  · intro k o hko
    refine ⟨fun ho => ?_, fun p ho => ?_⟩
    · rw [hpg.1 k ?_, hdg'n]
      · rfl
      · intro hc
        obtain ⟨z, hz, rfl⟩ := List.mem_map.1 hc
        rcases (hmem z).1 hz with ⟨h, h'⟩ | ⟨h, h'⟩ <;> rcases hko with ⟨h1, h2⟩ | ⟨h1, h2⟩
        · exact hxy (h1.symm.trans h)
        · rw [h2, h'] at ho; exact absurd ho (by simp)
        · rw [h2, h'] at ho; exact absurd ho (by simp)
        · exact hxy (h.symm.trans h1)
    · have hz : (k, p) ∈ own := by
        rw [hmem]
        rcases hko with ⟨h1, h2⟩ | ⟨h1, h2⟩
        · exact .inr ⟨h1, by rw [← h2, ho]⟩
        · exact .inl ⟨h1, by rw [← h2, ho]⟩
      obtain ⟨v, B, hv⟩ : ∃ v B, view d p = some (some v, B) := by
        rcases hko with ⟨_, h2⟩ | ⟨_, h2⟩
        · rw [h2] at ho; subst ho
          cases hax with | found _ h4 => exact ⟨_, _, h4⟩
        · rw [h2] at ho; subst ho
          cases hay with | found _ h4 => exact ⟨_, _, h4⟩
      have hpp : ∀ c ∈ p, Plain c := by
        rcases hko with ⟨_, h2⟩ | ⟨_, h2⟩
        · rw [h2] at ho; subst ho
          cases hax with | found h3 _ => exact h3.path_plain
        · rw [h2] at ho; subst ho
          cases hay with | found h3 _ => exact h3.path_plain
      obtain ⟨n', hn', hds', hpd, _⟩ := hm.tgt _ hz
      refine ⟨v, B, hv, ?_⟩
      rw [hpg.2 _ hz n' hn']
      have hnod : ∀ z ∈ own, ¬ [kData, z.1] <+: p := by
        intro z _ hpre
        exact hpd ((show [kData] <+: [kData, z.1] from ⟨[z.1], rfl⟩).trans hpre)
      have h1 := (hm.view p hnod).1
      have hvp : g'.view p = n'.view [] := by
        have := view_at hpp hn' []; rwa [List.append_nil] at this
      rw [hvp, view_nodeOf_tidy (.inl ht), hv] at h1
      cases n' with
      | node w b c =>
        cases w with
        | none => exact absurd hds' (by simp [H5.isDataset])
        | some w =>
          rw [H5.view] at h1
          have h2 : readLeaf w = readLeaf v := by simpa [shown] using h1
          rw [normH_data, bareDs, bareDs, h2]

end Tavi
