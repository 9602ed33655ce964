import Verif.Spec.Catalogue

/-!
How far reading has come: the items not yet read after the header and some units.
-/

namespace Verif.Spec

/-- After reading the entries of the units `us` from the items `l`, the items `l'` are left. -/
inductive After (forms : Option PluralForms) : List Item → List PoUnit → List Item → Prop
  | refl {l} : After forms l [] l
  | entry {block u rest us l'} : Entry forms block u → HasSource u.message → EndsHere forms block rest → After forms rest us l' →
      After forms (block.map .ok ++ rest) (u :: us) l'

/-- After the header, if there is one, and the entries of the units `us`, the items `l'` of `l` are left; `hdr` are the header data and
`forms` the plural forms.  `start` says that nothing has been read. -/
inductive Progress (env : Env) (l : List Item) : Bool → Header env.Lang → Option PluralForms → List PoUnit → List Item → Prop
  | start : Progress env l true (plainHeader env) none [] l
  | plain {u rest us l'} : First l (.unit u rest) → After none rest us l' → Progress env l false (plainHeader env) none (u :: us) l'
  | headed {ns cs t rest hdr forms us l'} : First l (.header ns cs t rest) → HeaderRule env ns cs t hdr →
      FormsRule env (hdr.properties.lookup (c!"Plural-Forms")) (.ok forms) → After forms rest us l' → Progress env l false hdr forms us l'

end Verif.Spec
