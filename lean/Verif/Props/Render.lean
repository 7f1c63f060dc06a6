import Verif.Proofs.Canonical
/-
  C55: scripts that are written down from a tree say what the tree says, and every script can
  be brought into this form.
-/
namespace Adx

open Syntax (Stmt Defines Text File)

variable {env : Env} {name : Str}

/-- **C55**: a tree that is written down is a text of the language of scripts, and it says
what the tree says. -/
theorem C55_written (t : Render.Scr) (h : t.Good env) : Syntax.Script env t.text t.name (t.grams env) (t.stmts env) :=
  Render.scr_read t h

/-- C55: it says nothing else. -/
theorem C55_only (t : Render.Scr) (h : t.Good env) (ha : Ascii t.text) (hs : blen t.text ≤ isizeMax) {nm : Option Str}
    {gs : List Gram} {ss : List Stmt} (h' : Syntax.Script env t.text nm gs ss) :
    nm = t.name ∧ gs = t.grams env ∧ ss = t.stmts env :=
  C49_unambiguous ha hs h' (C55_written t h)

/-- C55: two trees with the same text say the same. -/
theorem C55_readable (t t' : Render.Scr) (h : t.Good env) (h' : t'.Good env) (ha : Ascii t.text) (hs : blen t.text ≤ isizeMax)
    (he : t.text = t'.text) : t.name = t'.name ∧ t.grams env = t'.grams env ∧ t.stmts env = t'.stmts env := by
  refine C55_only t' h' (he ▸ ha) (he ▸ hs) ?_
  rw [← he]
  exact C55_written t h

/-- C55: a tree is compiled to what it says, if the files that it imports have a meaning. -/
theorem C55_compiles (t : Render.Scr) (h : t.Good env) (ha : Ascii t.text) (hs : blen t.text ≤ isizeMax) {file : Str}
    {fromFile : Option Str} {bs : List (Str × Thing)} (hd : Defines env (File env) fromFile 0 (t.stmts env) bs) :
    Compiles (fun fuel => compileScript env fuel ⟨t.text, file⟩ name fromFile) (t.name.getD name) (t.grams env) bs :=
  C49_compiles (.mk ha hs (C55_written t h) hd)

/-- C55: without imports it always is. -/
theorem C55_str (t : Render.Scr) (h : t.Good env) (ha : Ascii t.text) (hs : blen t.text ≤ isizeMax) {bs : List (Str × Gram)}
    (hb : t.stmts env = bs.map fun b => .own b.1 b.2) :
    Compiles (fun fuel => compileScriptFromStr env fuel t.text name) (t.name.getD name) (t.grams env)
      (bs.map fun b => (b.1, .own b.2)) :=
  C49_str ha hs (hb ▸ C55_written t h)

/-- **C55**: whatever a text of the language says, a tree says that too. -/
theorem C55_tree {src : Str} {nm : Option Str} {gs : List Gram} {ss : List Stmt} (ha : Ascii src)
    (h : Syntax.Script env src nm gs ss) :
    ∃ t : Render.Scr, t.Good env ∧ t.name = nm ∧ t.grams env = gs ∧ t.stmts env = ss ∧ Ascii t.text :=
  Render.scr_of h ha

/-- C55: a script can be replaced by the text of a tree, from comments to white space, and
nothing changes, provided that this text is not longer than a string can be. -/
theorem C55_format {src : Str} {fromFile : Option Str} {n : Str} {gs : List Gram} {bs : List (Str × Thing)}
    (h : Text env src name fromFile n gs bs) :
    ∃ t : Render.Scr, t.Good env ∧ t.grams env = gs ∧ (blen t.text ≤ isizeMax →
      Text env t.text name fromFile n gs bs ∧
      ∀ file, Compiles (fun fuel => compileScript env fuel ⟨t.text, file⟩ name fromFile) n gs bs) := by
  obtain ⟨ha, hs, h, hd⟩ := h
  obtain ⟨t, h1, rfl, rfl, rfl, h5⟩ := C55_tree ha h
  exact ⟨t, h1, rfl, fun hb => ⟨.mk h5 hb (C55_written t h1) hd, fun file => C55_compiles t h1 h5 hb hd⟩⟩

/-! ### Examples -/

namespace RenderExample

open Render CompileExample

/-- A script with a bit of everything. -/
def tree : Scr :=
  .headed 1 (some "G'".toList)
    [.comment " c".toList, .own "Word".toList (.mk .none .none (.equals "it's".toList) [] .some), .alias "B".toList [] [' '] "C".toList,
      .imports "b".toList [("X".toList, "Y".toList), ("_".toList, "Z".toList)]]
    [.named "n".toList (.mk .opt .not (.switch (.more (.plain (.mk .none .none (.ref "Word".toList) [("k".toList, "v\\'".toList)] .once))
        (.one (.captured (.mk .none .none (.program (.more (.plain (.mk .none .none (.ref "Y".toList) [] .any))
          (.one (.plain (.mk .none .none (.sequence "<".toList ">".toList "\\".toList) [] .once))))) [] (.upTo 3)))))) [] (.between 2 10)),
      .plain (.mk .none .none (.ref "Z".toList) [] (.atLeast 0))]

-- What it looks like.
example : tree.text = ("<!--[adextopa version='1' name='G\\'']\n# c\nWord = <='it\\'s'>+\nB= C\nimport { X as Y, _ as Z, } from 'b'\n-->\n" ++
    "(?'n' ?<![<Word k='v\\''> | (<{<Y>* <%'<', '>', '\\\\'>}>{3})]>{2,10})\n<Z>{0,}").toList := by
  decide +kernel

theorem tree_good : tree.Good files := by
  have w : Ident "Word".toList := ⟨⟨'W', _, rfl, rfl⟩, by decide⟩
  have b : Ident "B".toList := ⟨⟨'B', _, rfl, rfl⟩, by decide⟩
  have c : Ident "C".toList := ⟨⟨'C', _, rfl, rfl⟩, by decide⟩
  have x : Ident "X".toList := ⟨⟨'X', _, rfl, rfl⟩, by decide⟩
  have y : Ident "Y".toList := ⟨⟨'Y', _, rfl, rfl⟩, by decide⟩
  have z : Ident "Z".toList := ⟨⟨'Z', _, rfl, rfl⟩, by decide⟩
  have u : Ident "_".toList := ⟨⟨'_', _, rfl, rfl⟩, by decide⟩
  have k : AttrName "k".toList := ⟨by decide, by decide, by decide⟩
  have v : AttrRaw "v\\'".toList := .char (by decide) (.escaped .nil)
  have l : ∀ c ∈ " c".toList, Syntax.lineChar c = true := by decide
  unfold tree Scr.Good
  simp [Stm.Good, Pat.Good, Def.Good, Leaf.Good, Pats.Good, Rep.Good, -String.reduceToList, *]
  refine ⟨l, rfl, ?_⟩
  rintro a b (⟨rfl, rfl⟩ | ⟨rfl, rfl⟩)
  · exact ⟨x, y⟩
  · exact ⟨u, z⟩

/-- It says, of course, what it should. -/
example : Syntax.Script files tree.text (some "G'".toList) (tree.grams files)
    [.own "Word".toList (.loop 1 usizeMax (.equals "Word".toList true "it's".toList)), .own "B".toList (.ref "Ref".toList false "B= C".toList),
      .imports "b".toList [("X".toList, "Y".toList), ("_".toList, "Z".toList)]] :=
  C55_written tree tree_good

example : ∃ g g', tree.grams files = [.opt (.loop 2 10 (.not (.group "Name".toList true true [g, g']))),
    .discard (.loop 0 usizeMax (.ref "Ref".toList false "Z".toList))] ∧
    g = .discard (.attrs [("k".toList, "v\\'".toList)] (.ref "Ref".toList false "Word".toList)) ∧
    g' = .loop 0 3 (.group "Program".toList false false [.discard (.loop 0 usizeMax (.ref "Ref".toList false "Y".toList)),
      .discard (.sequence "Sequence".toList false "<".toList ">".toList "\\".toList)]) :=
  ⟨_, _, rfl, rfl, rfl⟩

end RenderExample

end Adx
