import Verif.Model.Script
/-
  What the tokens of a parsed grammar script describe, without heaps of matchers:
  grammars as plain terms.
-/
namespace Adx

/-- The name of a token of the heap. -/
def nameAt (toks : List Token) (t : TokId) : Option Str := toks[t]?.map Token.name

/-- Among `cs`, `c` is the first that has one of the names. -/
def First (toks : List Token) (names : List String) (cs : List TokId) (c : TokId) : Prop :=
  ∃ before after, cs = before ++ c :: after ∧ (∃ n ∈ names, nameAt toks c = some n.toList) ∧
    ∀ b ∈ before, ∀ n ∈ names, nameAt toks b ≠ some n.toList

/-- None of `cs` has one of the names. -/
def Absent (toks : List Token) (names : List String) (cs : List TokId) : Prop :=
  ∀ b ∈ cs, ∀ n ∈ names, nameAt toks b ≠ some n.toList

/-- The iteration range of a repeat specifier token, `lo..hi`. -/
inductive Repeats (toks : List Token) (t : TokId) : Nat → Nat → Prop
  /-- `*` -/
  | any {k} (hk : toks[t]? = some k) (hn : k.name = "RepeatZeroOrMore".toList) :
      Repeats toks t 0 usizeMax
  /-- `+` -/
  | some {k} (hk : toks[t]? = some k) (hn : k.name = "RepeatOneOrMore".toList) :
      Repeats toks t 1 usizeMax
  /-- `{n}`: up to `n`. -/
  | upTo {k a ak n} (hk : toks[t]? = some k) (hn : k.name = "RepeatRange".toList)
      (ha : First toks ["Minimum"] k.children a) (hak : toks[a]? = some ak)
      (hs : Absent toks ["Seperator"] k.children) (h1 : parseUsize ak.getCapturedValue = some n) :
      Repeats toks t 0 n
  /-- `{n,}` -/
  | atLeast {k a ak n} (hk : toks[t]? = some k) (hn : k.name = "RepeatRange".toList)
      (ha : First toks ["Minimum"] k.children a) (hak : toks[a]? = some ak)
      (hs : ¬ Absent toks ["Seperator"] k.children) (hm : Absent toks ["Maximum"] k.children)
      (h1 : parseUsize ak.getCapturedValue = some n) : Repeats toks t n usizeMax
  /-- `{n,m}` -/
  | between {k a ak b bk n m} (hk : toks[t]? = some k) (hn : k.name = "RepeatRange".toList)
      (ha : First toks ["Minimum"] k.children a) (hak : toks[a]? = some ak)
      (hs : ¬ Absent toks ["Seperator"] k.children) (hb : First toks ["Maximum"] k.children b)
      (hbk : toks[b]? = some bk) (h1 : parseUsize ak.getCapturedValue = some n)
      (h2 : parseUsize bk.getCapturedValue = some m) (hle : n ≤ m) : Repeats toks t n m

/-- Grammars as terms.  A leaf or group has a name, and says whether the name was
given to it. -/
inductive Gram
  | equals (name : Str) (custom : Bool) (s : Str)
  | regex (name : Str) (custom : Bool) (re : Regex)
  | sequence (name : Str) (custom : Bool) (a b e : Str)
  | ref (name : Str) (custom : Bool) (target : Str)
  | null
  /-- A program, or a switch (`first`). -/
  | group (name : Str) (custom : Bool) (first : Bool) (gs : List Gram)
  | loop (lo hi : Nat) (g : Gram)
  | opt (g : Gram)
  | not (g : Gram)
  | discard (g : Gram)
  /-- The tokens of `g` get the attributes that they lack. -/
  | attrs (m : AMap Str) (g : Gram)

namespace Gram

/-- The same grammar under a name; no name leaves it as it is. -/
def called (n : Str) (g : Gram) : Gram :=
  if n = [] then g
  else match g with
    | equals _ _ s => equals n (n != "Equals".toList) s
    | regex _ _ r => regex n (n != "Matches".toList) r
    | sequence _ _ a b e => sequence n (n != "Sequence".toList) a b e
    | ref _ _ t => ref n true t
    | group _ _ f gs => group n true f gs
    | g => g

/-- With the modifier `?` or else `!`. -/
def modified (opt neg : Prop) [Decidable opt] [Decidable neg] (g : Gram) : Gram :=
  if opt then .opt g else if neg then .not g else g

end Gram

/-- The attributes written in attribute tokens; a later one wins. -/
inductive Attrs (toks : List Token) : List TokId → AMap Str → AMap Str → Prop
  | nil {m} : Attrs toks [] m m
  | cons {c cs k a ak b bk m m'} (hk : toks[c]? = some k) (ha : k.children[0]? = some a)
      (hak : toks[a]? = some ak) (hb : k.children[1]? = some b) (hbk : toks[b]? = some bk)
      (h : Attrs toks cs (m.insert ak.getCapturedValue bk.getCapturedValue) m') :
      Attrs toks (c :: cs) m m'

/-- The `Attributes` child of a definition, if any, as a wrapper around its matcher. -/
inductive WithAttrs (toks : List Token) (cs : List TokId) (g : Gram) : Gram → Prop
  | none (h : Absent toks ["Attributes"] cs) : WithAttrs toks cs g g
  | empty {a ak} (h : First toks ["Attributes"] cs a) (hak : toks[a]? = some ak)
      (he : ak.children = []) : WithAttrs toks cs g g
  | some {a ak m} (h : First toks ["Attributes"] cs a) (hak : toks[a]? = some ak)
      (he : ak.children ≠ []) (hm : Attrs toks ak.children [] m) :
      WithAttrs toks cs g (.attrs m g)

/-- The repeat specifier child of a definition, if any, as a loop around its matcher. -/
inductive WithRepeat (toks : List Token) (cs : List TokId) (g : Gram) : Gram → Prop
  | none (h : Absent toks repeatSpecifierNames cs) : WithRepeat toks cs g g
  | some {r lo hi} (h : First toks repeatSpecifierNames cs r) (hr : Repeats toks r lo hi) :
      WithRepeat toks cs g (.loop lo hi g)

/-- The source text of a regular expression with its flags. -/
inductive RegexText (toks : List Token) (k : Token) : Str → Prop
  | plain (h : Absent toks ["Flags"] k.children) : RegexText toks k k.getValue
  | flags {f fk} (h : First toks ["Flags"] k.children f) (hf : toks[f]? = some fk) :
      RegexText toks k ("(?".toList ++ fk.getCapturedValue ++ ")".toList ++ k.getValue)

mutual

/-- What a matcher token (`='..'`, `/../`, `%..`, an identifier, `[..]`, `{..}`)
describes. -/
inductive DescribesMatcher (env : Env) (toks : List Token) : TokId → Gram → Prop
  | equals {t k c ck} (hk : toks[t]? = some k) (hn : k.name = "EqualsMatcher".toList)
      (hc : k.children[0]? = some c) (hck : toks[c]? = some ck) (hv : ck.getValue ≠ []) :
      DescribesMatcher env toks t (.equals "Equals".toList false ck.getValue)
  | regex {t k v re} (hk : toks[t]? = some k) (hn : k.name = "RegexMatcher".toList)
      (hv : k.getValue ≠ []) (ht : RegexText toks k v) (hr : env.regex v = some re) :
      DescribesMatcher env toks t (.regex "Matches".toList false re)
  | sequence {t k a ak b bk e ek} (hk : toks[t]? = some k) (hn : k.name = "SequenceMatcher".toList)
      (ha : k.children[0]? = some a) (hak : toks[a]? = some ak)
      (hb : k.children[1]? = some b) (hbk : toks[b]? = some bk)
      (he : k.children[2]? = some e) (hek : toks[e]? = some ek)
      (hva : ak.getValue ≠ []) (hvb : bk.getValue ≠ []) :
      DescribesMatcher env toks t
        (.sequence "Sequence".toList false ak.getValue bk.getValue ek.getValue)
  | custom {t k c ck} (hk : toks[t]? = some k) (hn : k.name = "CustomMatcher".toList)
      (hc : k.children[0]? = some c) (hck : toks[c]? = some ck) (hv : ck.getValue ≠ []) :
      DescribesMatcher env toks t (.ref "Ref".toList false ck.getValue)
  | empty {t k} (hk : toks[t]? = some k)
      (hn : k.name = "SwitchMatcher".toList ∨ k.name = "ProgramMatcher".toList)
      (hc : k.children = []) : DescribesMatcher env toks t .null
  | switch {t k gs} (hk : toks[t]? = some k) (hn : k.name = "SwitchMatcher".toList)
      (hc : k.children ≠ []) (h : DescribesAll env toks k.children gs) :
      DescribesMatcher env toks t (.group "Switch".toList false true gs)
  | program {t k gs} (hk : toks[t]? = some k) (hn : k.name = "ProgramMatcher".toList)
      (hc : k.children ≠ []) (h : DescribesAll env toks k.children gs) :
      DescribesMatcher env toks t (.group "Program".toList false false gs)

/-- What a list of pattern tokens describes. -/
inductive DescribesAll (env : Env) (toks : List Token) : List TokId → List Gram → Prop
  | nil : DescribesAll env toks [] []
  | cons {t ts g gs} (h : DescribesPattern env toks t g) (hs : DescribesAll env toks ts gs) :
      DescribesAll env toks (t :: ts) (g :: gs)

/-- What a definition `<..>` describes when it is called `name`. -/
inductive DescribesDefinition (env : Env) (toks : List Token) : TokId → Str → Gram → Prop
  | mk {t k m name g g1 g2} (hk : toks[t]? = some k) (hn : k.name = "PatternDefinition".toList)
      (hm : First toks patternMatcherNames k.children m) (h : DescribesMatcher env toks m g)
      (ha : WithAttrs toks k.children (g.called name) g1)
      {opt neg : Prop} [Decidable opt] [Decidable neg]
      (ho : opt ↔ ¬ Absent toks ["InnerOptionalModifier"] k.children)
      (hx : neg ↔ ¬ Absent toks ["InnerNotModifier"] k.children)
      (hr : WithRepeat toks k.children (g1.modified opt neg) g2)
      {opt' neg' : Prop} [Decidable opt'] [Decidable neg']
      (ho' : opt' ↔ ¬ Absent toks ["OuterOptionalModifier"] k.children)
      (hx' : neg' ↔ ¬ Absent toks ["OuterNotModifier"] k.children) :
      DescribesDefinition env toks t name (g2.modified opt' neg')

/-- What a pattern `<..>` or `(<..>)` or `(?'..' <..>)` describes. -/
inductive DescribesPattern (env : Env) (toks : List Token) : TokId → Gram → Prop
  | plain {t k g} (hk : toks[t]? = some k) (hn : k.name = "PatternDefinition".toList)
      (h : DescribesDefinition env toks t [] g) : DescribesPattern env toks t (.discard g)
  | captured {t k d g} (hk : toks[t]? = some k) (hn : k.name = "PatternDefinitionCaptured".toList)
      (hm : Absent toks ["MatcherName"] k.children) (hd : k.children[0]? = some d)
      (h : DescribesDefinition env toks d [] g) : DescribesPattern env toks t g
  /-- The capture gets the *name* of the name token. -/
  | named {t k n nk c ck d g} (hk : toks[t]? = some k)
      (hn : k.name = "PatternDefinitionCaptured".toList)
      (hm : First toks ["MatcherName"] k.children n) (hnk : toks[n]? = some nk)
      (hc : nk.children[0]? = some c) (hck : toks[c]? = some ck) (hd : k.children[1]? = some d)
      (h : DescribesDefinition env toks d ck.name g) : DescribesPattern env toks t g

end

mutual

/-- The matcher `m` is the grammar `g`, and none of its matchers is below `lo`. -/
inductive Built (ns : List Node) : Nat → MatcherId → Gram → Prop
  | equals {lo m n c s} (hl : lo ≤ m) (h : ns[m]? = some (.equals n c (.str s))) :
      Built ns lo m (.equals n c s)
  | regex {lo m n c r} (hl : lo ≤ m) (h : ns[m]? = some (.regex n c r)) :
      Built ns lo m (.regex n c r)
  | sequence {lo m n c a b e} (hl : lo ≤ m)
      (h : ns[m]? = some (.sequence n c (.str a) (.str b) (.str e))) :
      Built ns lo m (.sequence n c a b e)
  | ref {lo m n c t} (hl : lo ≤ m) (h : ns[m]? = some (.ref (.str t) n c)) :
      Built ns lo m (.ref n c t)
  | null {lo m} (hl : lo ≤ m) (h : ns[m]? = some .null) : Built ns lo m .null
  | group {lo m n c f ms gs} (hl : lo ≤ m) (h : ns[m]? = some (.program ms n c none f))
      (hs : BuiltAll ns (m + 1) ms gs) : Built ns lo m (.group n c f gs)
  | loop {lo m a b i g} (hl : lo ≤ m)
      (h : ns[m]? = some (.program [i] "Loop".toList false (some (a, b)) false))
      (hg : Built ns lo i g) : Built ns lo m (.loop a b g)
  | opt {lo m i g} (hl : lo ≤ m) (h : ns[m]? = some (.optional i)) (hg : Built ns lo i g) :
      Built ns lo m (.opt g)
  | not {lo m i g} (hl : lo ≤ m) (h : ns[m]? = some (.not i)) (hg : Built ns lo i g) :
      Built ns lo m (.not g)
  | discard {lo m i g} (hl : lo ≤ m) (h : ns[m]? = some (.discard i)) (hg : Built ns lo i g) :
      Built ns lo m (.discard g)
  | attrs {lo m i a g} (hl : lo ≤ m)
      (h : ns[m]? = some (.map i (addMissingAttributes a) passFailure)) (hg : Built ns lo i g) :
      Built ns lo m (.attrs a g)

/-- The same for lists. -/
inductive BuiltAll (ns : List Node) : Nat → List MatcherId → List Gram → Prop
  | nil {lo} : BuiltAll ns lo [] []
  | cons {lo m ms g gs} (h : Built ns lo m g) (hs : BuiltAll ns lo ms gs) :
      BuiltAll ns lo (m :: ms) (g :: gs)

end

/-- What the error tokens among `l` report. -/
def errorReports (toks : List Token) : List TokId → List ParseError
  | [] => []
  | t :: ts =>
    match toks[t]? with
    | some k =>
      if k.name = "Error".toList then
        ⟨(k.getAttribute "__message".toList).getD [], some k.matched⟩ :: errorReports toks ts
      else errorReports toks ts
    | none => errorReports toks ts

/-- What the children of a pattern scope describe: those that are patterns. -/
inductive ScopeMeans (env : Env) (toks : List Token) : List TokId → List Gram → Prop
  | nil : ScopeMeans env toks [] []
  | pattern {c cs k g gs} (hk : toks[c]? = some k)
      (hn : k.name = "PatternDefinitionCaptured".toList ∨ k.name = "PatternDefinition".toList)
      (h : DescribesPattern env toks c g) (hs : ScopeMeans env toks cs gs) :
      ScopeMeans env toks (c :: cs) (g :: gs)
  | other {c cs k gs} (hk : toks[c]? = some k)
      (hn : ¬ (k.name = "PatternDefinitionCaptured".toList ∨ k.name = "PatternDefinition".toList))
      (hs : ScopeMeans env toks cs gs) : ScopeMeans env toks (c :: cs) gs

/-- What one token of a script that was not read from a file contributes: patterns to be
matched, and named definitions.  An import has no meaning. -/
inductive ItemMeans (env : Env) (toks : List Token) (x : TokId) :
    List Gram → List (Str × Gram) → Prop
  | error {k msg} (hk : toks[x]? = some k) (hn : k.name = "Error".toList)
      (hm : k.getAttribute "__message".toList = some msg) : ItemMeans env toks x [] []
  | scope {k gs} (hk : toks[x]? = some k) (hn : k.name = "PatternScope".toList)
      (h : ScopeMeans env toks k.children gs) : ItemMeans env toks x gs []
  /-- `A = B` refers to the matcher that is named like the *whole* expression. -/
  | alias {k a ak v vk} (hk : toks[x]? = some k) (hn : k.name = "AssignmentExpression".toList)
      (ha : k.children[0]? = some a) (hak : toks[a]? = some ak)
      (hv : k.children[1]? = some v) (hvk : toks[v]? = some vk)
      (hvn : vk.name = "Identifier".toList) :
      ItemMeans env toks x [] [(ak.getValue, .ref "Ref".toList false k.getValue)]
  | definition {k a ak v vk g} (hk : toks[x]? = some k)
      (hn : k.name = "AssignmentExpression".toList)
      (ha : k.children[0]? = some a) (hak : toks[a]? = some ak)
      (hv : k.children[1]? = some v) (hvk : toks[v]? = some vk)
      (hvn : vk.name = "PatternDefinition".toList)
      (h : DescribesDefinition env toks v ak.getValue g) :
      ItemMeans env toks x [] [(ak.getValue, g)]
  | otherValue {k a ak v vk} (hk : toks[x]? = some k) (hn : k.name = "AssignmentExpression".toList)
      (ha : k.children[0]? = some a) (hak : toks[a]? = some ak)
      (hv : k.children[1]? = some v) (hvk : toks[v]? = some vk)
      (hvn : vk.name ≠ "Identifier".toList) (hvn' : vk.name ≠ "PatternDefinition".toList) :
      ItemMeans env toks x [] []
  | other {k} (hk : toks[x]? = some k) (he : k.name ≠ "Error".toList)
      (hs : k.name ≠ "PatternScope".toList) (ha : k.name ≠ "AssignmentExpression".toList)
      (hi : k.name ≠ "ImportStatement".toList) : ItemMeans env toks x [] []

/-- What a list of tokens contributes. -/
inductive ScriptMeans (env : Env) (toks : List Token) :
    List TokId → List Gram → List (Str × Gram) → Prop
  | nil : ScriptMeans env toks [] [] []
  | cons {x xs gs gs' bs bs'} (h : ItemMeans env toks x gs bs) (hs : ScriptMeans env toks xs gs' bs') :
      ScriptMeans env toks (x :: xs) (gs ++ gs') (bs ++ bs')

/-- The last definition of a name. -/
def lastDef {β : Type} (bs : List (Str × β)) (n : Str) : Option β :=
  (bs.reverse.find? (fun b => b.1 == n)).map Prod.snd

end Adx
