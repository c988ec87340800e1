import Verif.Model.App

/-!
# Model of the main window: `mainwindow.py`, `tavi_presenter/`, `tavi_view/`, `multithreading/proxy.py`

The window is what the user sees (tree, metadata, next file) together with the models behind it. A call through a proxy
(proxy.py lines 19-23) runs the method on a worker and waits for it, so it is the call itself, with its exceptions. Events go
through the broker (`Model/App.lean`): each class of events has one receiver in one window (load_presenter.py line 31,
metadata_presenter.py line 30, random_presenter.py lines 29-30). Queued signals are delivered before the next action of the user.
Not modelled: Qt itself, the dialog (the paths chosen are given), several windows, the `print`s. An exception that reaches Qt is
returned beside the window; what Qt does with it is left open.
-/

namespace Tavi

/-- The window with its models: `TaviProject` (dummy_model.py), the attribute `next_file` of `RandomModel`, the tree (titles and
files), the text of the metadata widget (file and index) and the text of the widget for the next file. -/
structure Window where
  project : Project
  nextAttr : Option Str
  tree : List (Str × List Str)
  metaText : Option (Str × ℕ)
  nextText : Option Str

/-- A new window, mainwindow.py lines 21-44. -/
def Window.new : Window := ⟨Project.new, none, [], none, none⟩

/-- load_view.py lines 146-156, `add_tree_data`: a node with the files. -/
def treeNode (files : List Str) : Py (Str × List Str) :=
  need files.head? .indexError >>= fun first =>
  (if isSubstr "exp".toList first then need (splitChar '_' first)[1]? .indexError else .ok "Folder".toList).map fun t => (t, files)

/-- What the user does: choose paths to load (`ls` is `os.listdir` at that moment, `finished` the order in which the workers
finish), or click on the `i`-th node of the tree (`none`) or its `j`-th file. -/
inductive UserAct where
  | load (ls : Str → Py (List Str)) (paths finished : List Str)
  | click (i : ℕ) (j : Option ℕ)

/-- load_presenter.py lines 49-50 and 45-47, dummy_model.py lines 47-69. -/
def Window.load (w : Window) (ls : Str → Py (List Str)) (paths finished : List Str) : Window × Option PyErr :=
  match paths with
  | [] => (w, some .indexError)
  | p :: _ => match ls p with
    | .error e => ({ w with project := { w.project with tempList := [] } }, some e)
    | .ok entries => match treeNode (w.project.load entries finished).2 with
      | .error e => ({ w with project := (w.project.load entries finished).1 }, some e)
      | .ok node => ({ w with project := (w.project.load entries finished).1, tree := w.tree ++ [node] }, none)

/-- random_model.py lines 19-37: the attribute `next_file` afterwards, and the name sent. -/
def Window.next (w : Window) (file : Str) : Option Str × Py Str :=
  match if file ≠ [] then nextName file else need w.nextAttr .attributeError with
  | .error e => (w.nextAttr, .error e)
  | .ok n => (some n, (indexOf w.project.fileList file).map fun _ => n)

/-- load_presenter.py lines 52-53, dummy_model.py lines 34-41: the file is selected, the next one is shown, and then the
metadata; an exception on the way leaves out the rest. -/
def Window.select (w : Window) (file : Str) : Window × Option PyErr :=
  match (w.next file).2 with
  | .error e => ({ w with project := { w.project with selected := some file }, nextAttr := (w.next file).1 }, some e)
  | .ok n => match indexOf w.project.fileList file with
    | .error e => ({ w with project := { w.project with selected := some file }, nextAttr := (w.next file).1, nextText := some n },
        some e)
    | .ok i => ({ w with project := { w.project with selected := some file }, nextAttr := (w.next file).1, nextText := some n,
                         metaText := some (file, i) }, none)

/-- load_view.py lines 158-160: only files can be clicked on. -/
def Window.click (w : Window) (i : ℕ) (j : Option ℕ) : Window × Option PyErr :=
  match j with
  | none => (w, none)
  | some j => match w.tree[i]? with
    | none => (w, none)
    | some node => match node.2[j]? with
      | none => (w, none)
      | some file => w.select file

/-- One action. -/
def Window.act (w : Window) : UserAct → Window × Option PyErr
  | .load ls paths finished => w.load ls paths finished
  | .click i j => w.click i j

/-- Several actions. -/
def Window.run (w : Window) (acts : List UserAct) : Window := acts.foldl (fun w a => (w.act a).1) w

end Tavi
