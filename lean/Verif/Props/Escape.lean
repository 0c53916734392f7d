import Verif.Model.Schema
import Verif.Model.SqlGraph
import Verif.Spec.Lexer
import Mathlib.Data.String.Basic

/-!
# C07, C10, C11: quoting and vertex ids
-/

namespace Verif

/-- a text without NUL (Postgres names and texts cannot contain NUL) -/
def NoNul (s : String) : Prop := '\x00' ∉ s.toList

instance (s : String) : Decidable (NoNul s) := by unfold NoNul; infer_instance

theorem lexBody_double (q : Char) (body rest : List Char) (hr : rest.head? ≠ some q) :
    lexBody q (body.flatMap (fun c => if c = q then [q, q] else [c]) ++ q :: rest) = some (body, rest) := by
  induction body with
  | nil =>
    cases rest with
    | nil => simp [lexBody]
    | cons d rest =>
      have : d ≠ q := by simpa using hr
      simp [lexBody, this]
  | cons c body ih =>
    by_cases h : c = q
    · subst h
      simp only [List.flatMap_cons, if_true, List.cons_append, List.nil_append]
      rw [lexBody, if_pos rfl, if_pos rfl, ih]; rfl
    · simp only [List.flatMap_cons, if_neg h, List.cons_append, List.nil_append]
      cases hd : (body.flatMap (fun c => if c = q then [q, q] else [c]) ++ q :: rest) with
      | nil => simp at hd
      | cons d tl => rw [lexBody, if_neg h, ← hd, ih]; rfl

theorem lexQuoted_quoteWith (q : Char) (s : String) (rest : List Char) (hr : rest.head? ≠ some q) :
    lexQuoted q ((quoteWith q s).toList ++ rest) = some (s.toList.filter (fun c => c ≠ '\x00'), rest) := by
  unfold quoteWith
  rw [String.toList_ofList]
  simp only [List.cons_append, List.append_assoc, List.nil_append, lexQuoted, if_true]
  exact lexBody_double q _ rest hr

/-- C10.  Whatever text follows (it must not begin with a quote), the lexer reads the quoted identifier back
as the identifier with its NUL bytes removed, and stops exactly at the end of the quoted text. -/
theorem C10_identifier_read_back (name : String) (following : String) (h : following.toList.head? ≠ some '"') :
    lexIdentifier (escapeIdentifier name ++ following) =
      some (name.toList.filter (fun c => c ≠ '\x00'), following.toList) := by
  unfold lexIdentifier escapeIdentifier
  rw [String.toList_append]
  exact lexQuoted_quoteWith '"' name _ h

/-- C10.  A name without NUL is read back exactly. -/
theorem C10_identifier_exact (name following : String) (hn : NoNul name) (h : following.toList.head? ≠ some '"') :
    lexIdentifier (escapeIdentifier name ++ following) = some (name.toList, following.toList) := by
  rw [C10_identifier_read_back name following h, List.filter_eq_self.mpr]
  intro c hc
  simp only [ne_eq, decide_eq_true_eq]
  rintro rfl; exact hn hc

/-- C10.  Different names have different quoted forms. -/
theorem C10_identifier_injective {a b : String} (ha : NoNul a) (hb : NoNul b)
    (h : escapeIdentifier a = escapeIdentifier b) : a = b := by
  have h1 := C10_identifier_exact a "" ha (by decide)
  have h2 := C10_identifier_exact b "" hb (by decide)
  rw [h, h2] at h1
  simp only [Option.some.injEq, Prod.mk.injEq, and_true] at h1
  exact String.toList_inj.mp h1.symm

/-- C11.  A quoted literal is read back exactly, whatever follows. -/
theorem C11_literal_read_back (val following : String) (h : following.toList.head? ≠ some '\'') :
    lexLiteral (escapeLiteral val ++ following) =
      some (val.toList.filter (fun c => c ≠ '\x00'), following.toList) := by
  unfold lexLiteral escapeLiteral
  rw [String.toList_append]
  exact lexQuoted_quoteWith '\'' val _ h

/-- C11.  For values without NUL the literal denotes exactly the value. -/
theorem C11_literal_exact (val following : String) (hn : NoNul val) (h : following.toList.head? ≠ some '\'') :
    lexLiteral (escapeLiteral val ++ following) = some (val.toList, following.toList) := by
  rw [C11_literal_read_back val following h, List.filter_eq_self.mpr]
  intro c hc
  simp only [ne_eq, decide_eq_true_eq]
  rintro rfl; exact hn hc

/-- C11.  Different values have different literals. -/
theorem C11_literal_injective {a b : String} (ha : NoNul a) (hb : NoNul b)
    (h : escapeLiteral a = escapeLiteral b) : a = b := by
  have h1 := C11_literal_exact a "" ha (by decide)
  have h2 := C11_literal_exact b "" hb (by decide)
  rw [h, h2] at h1
  simp only [Option.some.injEq, Prod.mk.injEq, and_true] at h1
  exact String.toList_inj.mp h1.symm

/-! ## C07 -/

/-- C07.  The qualified name determines schema and (escaped) object name, whatever characters they contain:
`"a"."b"` never is the name of two different objects. -/
theorem C07_qualified_name_injective {a b : SQName} (ha : NoNul a.schemaName) (hb : NoNul b.schemaName)
    (h : a.fq = b.fq) : a = b := by
  unfold SQName.fq at h
  rw [String.append_assoc, String.append_assoc] at h
  have h1 := C10_identifier_exact a.schemaName ("." ++ a.escapedName) ha (by simp)
  have h2 := C10_identifier_exact b.schemaName ("." ++ b.escapedName) hb (by simp)
  rw [h, h2] at h1
  simp only [Option.some.injEq, Prod.mk.injEq, String.toList_append] at h1
  obtain ⟨h3, h4⟩ := h1
  have h4 := List.append_cancel_left h4
  cases a; cases b
  simp only [String.toList_inj] at h3 h4
  simp [h3, h4]

/-- C07.  Tables, views, indexes, sequences …: names built from unescaped names are injective in both parts. -/
theorem C07_unescaped_name_injective {n n' s s' : String} (hn : NoNul n) (hn' : NoNul n') (hs : NoNul s)
    (hs' : NoNul s') (h : (buildNameFromUnescaped n s).fq = (buildNameFromUnescaped n' s').fq) : n = n' ∧ s = s' := by
  have := C07_qualified_name_injective (a := buildNameFromUnescaped n s) (b := buildNameFromUnescaped n' s') hs hs' h
  simp only [buildNameFromUnescaped, SQName.mk.injEq] at this
  exact ⟨C10_identifier_injective hn hn' this.2, this.1⟩

/-- the object kinds the generators use in vertex ids (every call of `buildSchemaObjVertexId`) -/
def vertexKinds : List String :=
  ["trigger", "materialized_view", "table", "column", "indexrename", "index", "checkconstraint", "attachpartition",
   "fkconstraint", "sequence", "sequence_ownership", "function", "procedure", "policy", "privilege", "view"]

theorem append_colon_inj {a b x y : List Char} (ha : ':' ∉ a) (hb : ':' ∉ b) (h : a ++ ':' :: x = b ++ ':' :: y) :
    a = b ∧ x = y := by
  induction a generalizing b with
  | nil =>
    cases b with
    | nil => simpa using h
    | cons d b => simp at h; exact absurd (h.1 ▸ List.mem_cons_self ..) hb
  | cons c a ih =>
    cases b with
    | nil => simp at h; exact absurd (h.1 ▸ List.mem_cons_self ..) ha
    | cons d b =>
      simp only [List.cons_append, List.cons.injEq] at h
      obtain ⟨rfl, h⟩ := h
      obtain ⟨rfl, rfl⟩ := ih (fun hm => ha (List.mem_cons_of_mem _ hm)) (fun hm => hb (List.mem_cons_of_mem _ hm)) h
      exact ⟨rfl, rfl⟩

/-- C07.  Two vertex ids have the same text only if kind, object id and direction agree — for any characters
in the object id, colons included. -/
theorem C07_vertex_id_injective {a b : VertexId} (ha : a.objType ∈ vertexKinds) (hb : b.objType ∈ vertexKinds)
    (h : a.text = b.text) : a = b := by
  have hk : ∀ k ∈ vertexKinds, ':' ∉ k.toList := by decide
  obtain ⟨at', ai, ad⟩ := a
  obtain ⟨bt, bi, bd⟩ := b
  have h' := congrArg String.toList h
  simp only [VertexId.text, String.toList_append, List.append_assoc] at h'
  have hc : (":" : String).toList = [':'] := by decide
  simp only [hc, List.singleton_append] at h'
  obtain ⟨h1, h2⟩ := append_colon_inj (hk _ ha) (hk _ hb) h'
  have hd : ∀ d : DiffType, ':' ∉ d.text.toList.reverse := by intro d; cases d <;> decide
  have h3 := congrArg List.reverse h2
  simp only [List.reverse_append, List.reverse_cons, List.append_assoc, List.singleton_append] at h3
  obtain ⟨h4, h5⟩ := append_colon_inj (hd ad) (hd bd) h3
  have h6 := List.reverse_inj.mp h4
  have h7 := List.reverse_inj.mp h5
  rw [String.toList_inj] at h1 h6 h7
  have : ad = bd := by cases ad <;> cases bd <;> first | rfl | (exfalso; revert h6; decide)
  simp only at h1
  rw [h1, h7, this]

/-! ### non-vacuity -/

example : escapeIdentifier "we\"ird.name" = "\"we\"\"ird.name\"" := by decide
example : lexIdentifier (escapeIdentifier "a\"b" ++ ".\"c\"") = some (['a', '"', 'b'], ".\"c\"".toList) := by decide
example : escapeLiteral "it's" = "'it''s'" := by decide
/-- names that look alike without quoting -/
example : NoNul "a\".\"b" ∧ (buildNameFromUnescaped "c" "a\".\"b").fq ≠ (buildNameFromUnescaped "b\".\"c" "a").fq := by
  decide
example : (⟨"index", "a:DELETE", .delete⟩ : VertexId).objType ∈ vertexKinds := by decide

end Verif
