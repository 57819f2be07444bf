import Verif.Model.Parser

/-! # Sorting keys (`recipe_parser.py:51-71`, `recipe_reader.py:504-520`, `_types.py:27-101`) -/

namespace Crm

/-- `sys.maxsize` on a 64 bit platform. -/
def maxSize : Int := 9223372036854775807

/-- `_canonical_sort_keys_comparison`, `recipe_reader.py:504-520`. -/
def sortKey (tbl : List (Str × Nat)) (n : Node) : Int :=
  if n.isComment then -maxSize
  else match n.value with
    | .str s => match lookupD s tbl with
      | some p => p
      | none => maxSize
    | _ => maxSize

/-- Insert behind all entries with the same or a smaller key. -/
def insertByKey (key : α → Int) (x : α) : List α → List α
  | [] => [x]
  | y :: ys => if key y ≤ key x then y :: insertByKey key x ys else x :: y :: ys

/-- `list.sort(key=…)`: Python's sort is stable; which algorithm is used does not matter for the result. -/
def sortByKeyGo (key : α → Int) : List α → List α → List α
  | acc, [] => acc
  | acc, x :: xs => sortByKeyGo key (insertByKey key x acc) xs

/-- `list.sort(key=…)`. -/
def sortByKey (key : α → Int) (xs : List α) : List α := sortByKeyGo key [] xs

/-- The change made to the target of `_sort_subtree_keys`, `recipe_parser.py:69-71`. -/
def sortNode (tbl : List (Str × Nat)) (rename : Str) (n : Node) : Node :=
  let n := if rename = [] then n else { n with value := .str rename }
  { n with children := sortByKey (sortKey tbl) n.children }

/-- `_sort_subtree_keys`, `recipe_parser.py:53-71`; it neither rebuilds the selector table nor marks the recipe. -/
def Recipe.sortSubtreeKeys (r : Recipe) (path : Str) (tbl : List (Str × Nat)) (rename : Str := []) : Except PyErr Recipe := do
  let stack ← strToStack path
  match traverse r.root stack with
  | none => .ok r
  | some pos => .ok { r with root := updateAt (sortNode tbl rename) pos r.root }

/-- `TOP_LEVEL_KEY_SORT_ORDER`, `_types.py:34-48`. -/
def topLevelOrder : List (Str × Nat) :=
  [(§"schema_version", 0), (§"context", 10), (§"package", 20), (§"recipe", 30), (§"source", 40), (§"files", 50),
   (§"build", 60), (§"requirements", 70), (§"outputs", 80), (§"test", 90), (§"tests", 100), (§"about", 110),
   (§"extra", 120)]

/-- `V1_SOURCE_SECTION_KEY_SORT_ORDER`, `_types.py:51-70`. -/
def sourceOrder : List (Str × Nat) :=
  [(§"url", 0), (§"sha256", 10), (§"md5", 20), (§"path", 30), (§"use_gitignore", 40), (§"git", 50), (§"branch", 60),
   (§"tag", 70), (§"rev", 80), (§"depth", 90), (§"lfs", 100), (§"target_directory", 120), (§"file_name", 130),
   (§"patches", 140)]

/-- `V1_BUILD_SECTION_KEY_SORT_ORDER`, `_types.py:73-86`. -/
def buildOrder : List (Str × Nat) :=
  [(§"number", 0), (§"string", 10), (§"skip", 20), (§"noarch", 30), (§"script", 40), (§"merge_build_and_host_envs", 50),
   (§"always_include_files", 60), (§"always_copy_files", 70), (§"variant", 80), (§"python", 90),
   (§"prefix_detection", 100), (§"dynamic_linking", 110)]

/-- `V1_TEST_SECTION_KEY_SORT_ORDER`, `_types.py:89-95`. -/
def testOrder : List (Str × Nat) :=
  [(§"script", 0), (§"requirements", 10), (§"files", 20), (§"python", 30), (§"downstream", 40)]

/-- `V1_PYTHON_TEST_KEY_SORT_ORDER`, `_types.py:98-101`. -/
def pythonTestOrder : List (Str × Nat) := [(§"imports", 0), (§"pip_check", 10)]

example : sortByKey (fun x : Int => x % 10) [23, 11, 13, 2, 1] = [11, 1, 2, 23, 13] := by decide

end Crm
