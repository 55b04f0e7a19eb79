import Verif.Ast
/-!
# Visitors

`src/visit.rs` and the code generated by `#[derive(Visit)]` (`fuzzy-pickles-derive/src/lib.rs` 49-133).
-/

namespace Verif

/-- `src/ast.rs` 13-17, `File`. -/
structure File where
  items : List V
  whitespace : List Ws
deriving Repr

/-- `src/visit.rs` 89-92, `Control`. -/
inductive Control | Continue | Break
deriving DecidableEq, Repr

/-- What a callback of a visitor is called with: a struct or an enum of the tree (`node` or `enm`), a `Whitespace`, a
`Comment` in it, or the whole file. -/
inductive Callee
  | value (v : V)
  | whitespace (w : Ws)
  | comment (w : Ws)
  | file (f : File)

/-- `src/visit.rs` 109-, `trait Visitor`, with state `σ`: all `visit_…` methods as one function, all `exit_…` methods as
another. -/
structure Visitor (σ : Type) where
  visit : Callee → σ → Control × σ
  exit : Callee → σ → σ

/-- The structs `Attributed<T>`. -/
def K.isAttributed : K → Bool
  | .AttributedEnumVariant | .AttributedExpression | .AttributedExternBlockMember | .AttributedGenericDeclarationConst
  | .AttributedGenericDeclarationLifetime | .AttributedGenericDeclarationType | .AttributedImplMember | .AttributedItem
  | .AttributedStructDefinitionFieldNamed | .AttributedStructDefinitionFieldUnnamed | .AttributedTraitMember => true
  | _ => false

section
variable {σ : Type} (vis : Visitor σ)

/-- `fuzzy-pickles-derive/src/lib.rs` 61-83, the derived `visit`: `body` visits the fields. -/
def Visitor.around (c : Callee) (body : σ → σ) (s : σ) : σ :=
  match vis.visit c s with
  | (.Continue, s) => vis.exit c (body s)
  | (.Break, s) => vis.exit c s

/-- `Visit for Whitespace` and `Visit for Comment` (derived, `src/ast.rs` 95-105). -/
def Visitor.visitWs (w : Ws) : σ → σ :=
  vis.around (.whitespace w) fun s =>
    match w with
    | .whitespace _ => s
    | .commentLine _ | .commentBlock _ => vis.around (.comment w) id s

/-- `Visit for Vec<Whitespace>`. -/
def Visitor.visitWss : List Ws → σ → σ
  | [], s => s
  | w :: ws, s => Visitor.visitWss ws (vis.visitWs w s)

mutual
/-- `Visit::visit`: `Extent` (`src/visit.rs` 71-85), `Vec` and `Option` (30-66), derived enums and structs, and
`Attributed<T>` (`src/ast.rs` 1317-1340), which ignores the `Control` and does not visit its `whitespace`.  The `whitespace`
field is the last of its struct. -/
def Visitor.visitV : V → σ → σ
  | .ext _, s => s
  | .bool _, s => s
  | .list vs, s => Visitor.visitL vs s
  | .enm t vs, s => vis.around (.value (.enm t vs)) (fun s => Visitor.visitL vs s) s
  | .node k e ws vs, s =>
    if k.isAttributed then
      vis.exit (.value (.node k e ws vs)) (Visitor.visitF k.fields vs (vis.visit (.value (.node k e ws vs)) s).2)
    else
      vis.around (.value (.node k e ws vs)) (fun s => vis.visitWss ws (Visitor.visitF k.fields vs s)) s
/-- `Visit for Vec<T>` -/
def Visitor.visitL : List V → σ → σ
  | [], s => s
  | v :: vs, s => Visitor.visitL vs (Visitor.visitV v s)
/-- The fields without `#[visit(ignore)]`, in order (`fuzzy-pickles-derive/src/lib.rs` 88-133). -/
def Visitor.visitF : List Fld → List V → σ → σ
  | f :: fs, v :: vs, s => Visitor.visitF fs vs (if f.visited then Visitor.visitV v s else s)
  | _, _, s => s
end

/-- `File::visit` (derived). -/
def Visitor.visitFile (f : File) : σ → σ :=
  vis.around (.file f) fun s => vis.visitWss f.whitespace (vis.visitL f.items s)

end

end Verif
