import Verif.Props.SessionScans
import Verif.Props.FolderDemo

/-!
# The scans of a session: concrete cases (C101)
-/

namespace Tavi

open Spec Demo

/-! ## An entry with a link -/

/-- A dataset. -/
def aDataset (l : List ℝ) : Dict := .cons "dataset".toList (.leaf (.fin l)) .nil

/-- A monitor with a link to its counts. -/
def linkMonitor : Dict := .cons "data".toList (.dict (aDataset [1, 1])) (.cons "monitor".toList (.dict (aDataset [1, 1])) .nil)

/-- The entry of a file with this monitor. -/
def linkEntry : Dict :=
  .cons "instrument".toList (.dict (.cons "detector".toList (.dict (.cons "data".toList (.dict (aDataset [5, 7])) .nil)) .nil))
  (.cons "monitor".toList (.dict linkMonitor)
  (.cons "sample".toList (.dict (.cons "Pt.".toList (.dict (aDataset [1, 2])) .nil)) .nil))

theorem link_steady : Steady linkEntry := by
  refine C101_linked (mon := linkMonitor) (e := aDataset [1, 1]) rfl (by decide) rfl ?_
  intro kv hkv
  rw [aDataset, items, items] at hkv
  rw [List.mem_singleton.1 hkv]
  exact .inr rfl

theorem link_linked : ¬ NoLink linkEntry := by
  have : (nxGet linkEntry "monitor/data".toList false).1 = .ok (some (.leaf (.fin [1, 1]))) := by
    show getItem (dropLogs linkEntry) (splitChar '/' (specialKey "monitor/data".toList false)) false = _
    rw [show splitChar '/' (specialKey "monitor/data".toList false) = ["monitor".toList, "data".toList] by decide]
    exact getItem_hit (f := aDataset [1, 1]) rfl rfl
  rw [NoLink, this]
  intro h
  cases h

/-- Whatever was asked before, and although asking changes the entry, the scan is the same. -/
example (l : List ScanRequest) :
    ((ScanRequest.get (.num 34)).answer (fun _ => []) (afterRequests (fun _ => []) [("exp1".toList, [(scanName 34, linkEntry)])] l)).1 =
      (newScan [] (scanName 34) linkEntry).map fun s => [s] := by
  rw [C101_history]
  · show (getScanObj (fun _ => []) [("exp1".toList, [(scanName 34, linkEntry)])] (.num 34)).1.map _ = _
    obtain ⟨h1, h2, -⟩ := C101_get (lists := fun _ => []) [("exp1".toList, [(scanName 34, linkEntry)])]
    rw [h2 "exp1".toList _ _ 34 rfl, h1, filed, lookupKey, if_pos rfl, Option.bind_some, lookupKey, if_pos rfl]
  · intro e n d hd
    rw [filed, lookupKey] at hd
    split at hd
    · rw [Option.bind_some, lookupKey] at hd
      split at hd
      · rw [← Option.some.inj hd]; exact link_steady
      · cases hd
    · cases hd

/-! ## A folder of two scans -/

theorem two_last {n : ℕ} {file i x : Str} (hf : file ∈ twoListing) (hs : ScanFile file i x (scanName n)) :
    file = "HB1A_exp0266_scan0027.dat".toList ∧ scanName n = scanName 27 ∨
      file = "HB1A_exp0266_scan0028.dat".toList ∧ scanName n = scanName 28 := by
  simp only [twoListing, List.mem_cons, List.not_mem_nil, or_false] at hf
  rcases hf with rfl | rfl | rfl
  · exact .inr ⟨rfl, (hs.unique scanFile28).2.2⟩
  · exact absurd (List.isSuffixOf_iff_suffix.2 hs.suffix) (by decide +kernel)
  · exact .inl ⟨rfl, (hs.unique scanFile27).2.2⟩

/-- A session into which the folder is loaded: whatever is asked, scan 27 and scan 28 are those of their files, and there is no
scan 30. -/
example : ∃ (ds : Str) (es : List (Str × Dict)) (data : TaviData) (s27 s28 : ScanObj) (f27 f28 : SpiceFile),
    fromSpice plainDate (fun _ => none) loadDisk ["exp".toList] twoListing none = .ok es ∧ loadScans [] es = .ok data ∧
    Loaded plainDate (fun _ => none) loadDisk loadDir "HB1A_exp0266_scan0027.dat".toList f27 ds (scanName 27) s27 ∧
    Loaded plainDate (fun _ => none) loadDisk loadDir "HB1A_exp0266_scan0028.dat".toList f28 ds (scanName 28) s28 ∧
    ∀ l : List ScanRequest,
      ((ScanRequest.get (.num 27)).answer (fun _ => ["divergence_x".toList]) (afterRequests (fun _ => ["divergence_x".toList]) data l)).1 =
        .ok [s27] ∧
      ((ScanRequest.get (.tup ds 28)).answer (fun _ => ["divergence_x".toList]) (afterRequests (fun _ => ["divergence_x".toList]) data l)).1 =
        .ok [s28] ∧
      ((ScanRequest.get (.num 30)).answer (fun _ => ["divergence_x".toList]) (afterRequests (fun _ => ["divergence_x".toList]) data l)).1 =
        .error .keyError := by
  obtain ⟨es, hes⟩ := two_from
  obtain ⟨ds, data, -, hdata, h⟩ := C101_folder plainDate (fun _ => none) loadDisk ["exp".toList] twoListing two_conventional es hes []
    (fun e n d hd => by cases hd)
  obtain ⟨f, hf, hc, hm, d, hd⟩ := normal_loads
  obtain ⟨s, hs⟩ := demo_scan hf (.inl hm) hd (by rw [hc]; decide +kernel) (by decide) (scanName 27)
  obtain ⟨f', hf', hc', hm', d', hd'⟩ := polar_loads
  obtain ⟨s', hs'⟩ := demo_scan hf' (.inr hm') hd' (by rw [hc']; decide +kernel) (by decide) (scanName 28)
  have hne : scanName 27 ≠ scanName 28 := by decide +kernel
  refine ⟨ds, es, data, _, _, f, f', hes, hdata, loaded_of hf hd hs ds, loaded_of hf' hd' hs' ds, fun l => ⟨?_, ?_, ?_⟩⟩
  · refine ((h (fun _ => ["divergence_x".toList]) rfl l 27 (.num 27) (.inr ⟨rfl, rfl⟩)).1 _).2
      ⟨_, _, _, f, by decide +kernel, scanFile27, fun file' hf' i' x' hs' => ?_, loaded_of hf hd hs ds⟩
    rcases two_last hf' hs' with ⟨rfl, -⟩ | ⟨-, e⟩
    · exact le_rfl
    · exact absurd e hne
  · refine ((h (fun _ => ["divergence_x".toList]) rfl l 28 (.tup ds 28) (.inl rfl)).1 _).2
      ⟨_, _, _, f', by decide +kernel, scanFile28, fun file' hf' i' x' hs' => ?_, loaded_of hf' hd' hs' ds⟩
    rcases two_last hf' hs' with ⟨-, e⟩ | ⟨rfl, -⟩
    · exact absurd e.symm hne
    · exact le_rfl
  · refine (h (fun _ => ["divergence_x".toList]) rfl l 30 (.num 30) (.inr ⟨rfl, rfl⟩)).2 fun file hf i x hs => ?_
    rcases two_last hf hs with ⟨-, e⟩ | ⟨-, e⟩
    · exact absurd e (by decide +kernel)
    · exact absurd e (by decide +kernel)

end Tavi
