import Verif.Props.ScanInfo
import Verif.Props.Session

/-!
# What a loaded scan reports about instrument and measurement (C77)
-/

namespace Tavi

open Spec

section
variable {iso : Str → Py Str} {logs : List (Str × LogVal)} {p : Pieces}

theorem textOf_metaText {md : List (Str × MetaVal)} {k t : Str} (h : metaText md k = .ok t) : textOf md k = some t := by
  rw [metaText] at h
  obtain ⟨v, hv, h⟩ := py_bind_eq_ok.1 h
  rw [need_eq_ok] at hv
  cases v with
  | str s => obtain rfl := Except.ok.inj h; rw [textOf, hv]
  | nums l => exact absurd h (by simp)
  | strs l => exact absurd h (by simp)
  | none => exact absurd h (by simp)

theorem sense_inv {md : List (Str × MetaVal)} {i : ℕ} {o : Option Dict} (h : senseAt md i = .ok o) :
    ∃ t c, textOf md "sense".toList = some t ∧ t[i]? = some c ∧ Stored o (some (.leaf (.str [c]))) := by
  rw [senseAt] at h
  obtain ⟨t, ht, h⟩ := py_bind_eq_ok.1 h
  obtain ⟨c, hc, rfl⟩ := map_eq_ok.1 h
  rw [need_eq_ok] at hc
  exact ⟨t, c, textOf_metaText ht, hc, .inr ⟨_, _, rfl, rfl⟩⟩

theorem Made.mono_member (h : Made iso logs p) {k : Str} (hp : Plain k) {v : Py (Option Dict)} (hm : (k, v) ∈ monoFields logs p.md) :
    ∃ o, v = .ok o ∧ p.mono.get? k = o.map Val.dict :=
  member_get h.hmono (by rw [mono_fst]; decide +kernel) hp hm

theorem Made.ana_member (h : Made iso logs p) {k : Str} (hp : Plain k) {v : Py (Option Dict)} (hm : (k, v) ∈ anaFields logs p.md) :
    ∃ o, v = .ok o ∧ p.ana.get? k = o.map Val.dict :=
  member_get h.hana (by rw [ana_fst]; decide +kernel) hp hm

/-- Types and senses of the crystals, and the sense of the sample table. -/
theorem Made.crystals (h : Made iso logs p) :
    getItem (dropLogs p.entry) ["monochromator".toList, "type".toList] false = .ok (shownText (textOf p.md "monochromator".toList)) ∧
    getItem (dropLogs p.entry) ["analyser".toList, "type".toList] false = .ok (shownText (textOf p.md "analyzer".toList)) ∧
    ∃ t c0 c1 c2, textOf p.md "sense".toList = some t ∧ t[0]? = some c0 ∧ t[1]? = some c1 ∧ t[2]? = some c2 ∧
      getItem (dropLogs p.entry) ["monochromator".toList, "sense".toList] false = .ok (some (.leaf (.str [c0]))) ∧
      getItem (dropLogs p.entry) ["goniometer".toList, "sense".toList] false = .ok (some (.leaf (.str [c1]))) ∧
      getItem (dropLogs p.entry) ["analyser".toList, "sense".toList] false = .ok (some (.leaf (.str [c2]))) := by
  have cm : ("monochromator".toList, p.mono) ∈ p.comps := by simp [Pieces.comps]
  have ca : ("analyser".toList, p.ana) ∈ p.comps := by simp [Pieces.comps]
  have cg : ("goniometer".toList, p.goni) ∈ p.comps := by simp [Pieces.comps]
  obtain ⟨o1, h1, g1⟩ := h.mono_member (k := "type".toList) (by decide)
    (v := .ok (dsText (textOf p.md "monochromator".toList) [])) (by
      unfold monoFields; repeat (first | exact List.mem_cons_self | apply List.mem_cons_of_mem))
  obtain ⟨o2, h2, g2⟩ := h.ana_member (k := "type".toList) (by decide)
    (v := .ok (dsText (textOf p.md "analyzer".toList) [])) (by
      unfold anaFields; apply List.mem_append_left
      repeat (first | exact List.mem_cons_self | apply List.mem_cons_of_mem))
  obtain ⟨o3, h3, g3⟩ := h.mono_member (k := "sense".toList) (by decide) (v := senseAt p.md 0) (by
      unfold monoFields; repeat (first | exact List.mem_cons_self | apply List.mem_cons_of_mem))
  obtain ⟨o4, h4, g4⟩ := h.ana_member (k := "sense".toList) (by decide) (v := senseAt p.md 2) (by
      unfold anaFields; apply List.mem_append_left
      repeat (first | exact List.mem_cons_self | apply List.mem_cons_of_mem))
  obtain ⟨o5, h5, g5⟩ := member_get (k := "sense".toList) (v := senseAt p.md 1) h.hgoni
    (by rw [List.map_cons, map_fst_cols]; show goniK.Nodup; decide +kernel) (by decide) List.mem_cons_self
  obtain rfl := Except.ok.inj h1
  obtain rfl := Except.ok.inj h2
  obtain ⟨t0, c0, ht0, hc0, s0⟩ := sense_inv h3
  obtain ⟨t2, c2, ht2, hc2, s2⟩ := sense_inv h4
  obtain ⟨t1, c1, ht1, hc1, s1⟩ := sense_inv h5
  obtain rfl : t0 = t1 := Option.some.inj (ht0.symm.trans ht1)
  obtain rfl : t0 = t2 := Option.some.inj (ht0.symm.trans ht2)
  exact ⟨h.comp_stored cm g1 (stored_text _ _), h.comp_stored ca g2 (stored_text _ _), t0, c0, c1, c2, ht0, hc0, hc1, hc2,
    h.comp_stored cm g3 s0, h.comp_stored cg g5 s1, h.comp_stored ca g4 s2⟩

theorem Made.collimation (h : Made iso logs p) {t : Str} {l : List ℚ} (ht : textOf p.md "collimation".toList = some t)
    (hl : (splitChar '-' t).mapM pyFloat = .ok l) :
    getItem (dropLogs p.entry) ["divergence_x".toList] false = .ok (some (.leaf (reals l))) := by
  have hc := h.hcoll
  rw [buildColl] at hc
  obtain ⟨t', ht', hc⟩ := py_bind_eq_ok.1 hc
  obtain rfl : t' = t := Option.some.inj ((textOf_metaText ht').symm.trans ht)
  rw [hl, py_bind_ok] at hc
  obtain ⟨o, ho, hg⟩ := member_get (k := "divergence_x".toList) hc (by show collK.Nodup; decide) (by decide)
    (List.mem_cons_of_mem _ List.mem_cons_self)
  obtain rfl := Except.ok.inj ho
  exact h.lone_stored (i := 2) (by decide) (by decide +kernel) hg (.inr ⟨_, _, rfl, rfl⟩)

end

theorem take_three {t : Str} {a b c : Char} (h0 : t[0]? = some a) (h1 : t[1]? = some b) (h2 : t[2]? = some c) :
    t.take 3 = [a] ++ [b] ++ [c] := by
  match t, h0, h1, h2 with
  | x :: y :: z :: _, h0, h1, h2 =>
    simp only [List.getElem?_cons_zero, List.getElem?_cons_succ, Option.some.injEq] at h0 h1 h2
    subst h0; subst h1; subst h2; rfl

/-- **C77**: the instrument a scan reports is the one of the header: the crystals, the three senses, the collimation. -/
theorem C77_instrument (iso : Str → Py Str) (xml : List Str → Option Str) (fs : FS) (dir : List Str) (file : Str) (f : SpiceFile)
    (ds sn : Str) (s : ScanObj) (h : Loaded iso xml fs dir file f ds sn s) (t : Str) (ht : header f "sense".toList = some t)
    (ns : List Numeral) (ss : List Str) (hne : ns ≠ []) (hv : ∀ n ∈ ns, n.Valid ∧ n.sign = none ∧ n.exp = none)
    (hss : List.Forall₂ (fun s (n : Numeral) => Trim s n.text) ss ns)
    (hcol : header f "collimation".toList = some (joinStr "-".toList ss)) :
    ∃ i, instrumentInfo s = .ok i ∧ i.mono = shownText (header f "monochromator".toList) ∧
      i.ana = shownText (header f "analyzer".toList) ∧ i.sense = t.take 3 ∧ i.sense.length = 3 ∧
      i.collimation = some (.leaf (.fin (ns.map fun n => (n.value : ℝ)))) := by
  obtain ⟨logs, p, s', _, hp, hmd, _, _, _, _, _, he⟩ := loaded_inv h
  obtain ⟨g1, g2, t', c0, c1, c2, ht', hc0, hc1, hc2, g3, g4, g5⟩ := hp.crystals
  rw [header_text h.1 hmd (by decide) (by decide) (by decide)] at g1 g2 ht'
  obtain rfl : t' = t := Option.some.inj (ht'.symm.trans ht)
  have hm : ss.mapM pyFloat = .ok (ns.map Numeral.value) ∧ ∀ q ∈ ss, '-' ∉ q := by
    clear hcol hne
    induction hss with
    | nil => exact ⟨rfl, by simp⟩
    | @cons q n ss ns h1 _ ih =>
      obtain ⟨i1, i2⟩ := ih fun n hn => hv n (List.mem_cons_of_mem _ hn)
      obtain ⟨v1, v2, v3⟩ := hv n List.mem_cons_self
      refine ⟨by rw [List.mapM_cons, pyFloat_ok v1 h1, i1]; rfl, fun q' hq' => ?_⟩
      rcases List.mem_cons.1 hq' with rfl | hq'
      · obtain ⟨a, b, rfl, ha, hb, _⟩ := h1
        simp only [List.mem_append, not_or]
        refine ⟨⟨not_mem_blank (by decide) ha, ?_⟩, not_mem_blank (by decide) hb⟩
        rw [plain_text v2 v3]
        intro hd
        rcases mantText_chars v1 hd with hd | hd
        · exact absurd hd (by decide)
        · exact absurd hd (by decide)
      · exact i2 q' hq'
  have hne' : ss ≠ [] := by rintro rfl; cases hss; exact hne rfl
  have g6 := hp.collimation (t := joinStr "-".toList ss) (l := ns.map Numeral.value)
    (by rw [header_text h.1 hmd (by decide) (by decide) (by decide)]; exact hcol)
    (by rw [show splitChar '-' (joinStr "-".toList ss) = ss from splitChar_join hne' hm.2]; exact hm.1)
  have e1 : s.get "monochromator/type".toList = _ := (scan_get he (by decide) (by decide)).trans g1
  have e2 : s.get "analyser/type".toList = _ := (scan_get he (by decide) (by decide)).trans g2
  have e3 : s.get "monochromator/sense".toList = _ := (scan_get he (by decide) (by decide)).trans g3
  have e4 : s.get "goniometer/sense".toList = _ := (scan_get he (by decide) (by decide)).trans g4
  have e5 : s.get "analyser/sense".toList = _ := (scan_get he (by decide) (by decide)).trans g5
  have e6 : s.get "divergence_x".toList = _ := (scan_get he (by decide) (by decide)).trans g6
  refine ⟨⟨[], _, _, t'.take 3, some (.leaf (.fin (ns.map fun n => (n.value : ℝ))))⟩, ?_, rfl, rfl, rfl, ?_, rfl⟩
  · rw [instrumentInfo, e1, py_bind_ok, e2, py_bind_ok, e3, py_bind_ok, e4, py_bind_ok, e5, py_bind_ok, addend, py_bind_ok,
      addend, py_bind_ok, addend, py_bind_ok, e6, py_bind_ok, take_three hc0 hc1 hc2, reals, List.map_map]
    rfl
  · rw [take_three hc0 hc1 hc2]; rfl

/-- **C77**, the code disagrees: the name of the instrument is never reported. -/
theorem C77_name_lost (iso : Str → Py Str) (xml : List Str → Option Str) (fs : FS) (dir : List Str) (file : Str) (f : SpiceFile)
    (ds sn : Str) (s : ScanObj) (_ : Loaded iso xml fs dir file f ds sn s) (i : InstrumentInfo) (hi : instrumentInfo s = .ok i)
    (t : Str) (_ : instrumentName f file = some t) (hne : t ≠ []) : i.name ≠ t := by
  unfold instrumentInfo at hi
  obtain ⟨_, _, hi⟩ := py_bind_eq_ok.1 hi
  obtain ⟨_, _, hi⟩ := py_bind_eq_ok.1 hi
  obtain ⟨_, _, hi⟩ := py_bind_eq_ok.1 hi
  obtain ⟨_, _, hi⟩ := py_bind_eq_ok.1 hi
  obtain ⟨_, _, hi⟩ := py_bind_eq_ok.1 hi
  obtain ⟨_, _, hi⟩ := py_bind_eq_ok.1 hi
  obtain ⟨_, _, hi⟩ := py_bind_eq_ok.1 hi
  obtain ⟨_, _, hi⟩ := py_bind_eq_ok.1 hi
  obtain ⟨_, _, hi⟩ := py_bind_eq_ok.1 hi
  obtain rfl := Except.ok.inj hi
  exact Ne.symm hne

end Tavi
