import Verif.Model.Trans

/-!
# Specification: cutting a transaction in two
-/

set_option autoImplicit false

namespace TTGraph
namespace Spec

/-- `t1` has the operations of `t` that come first in the documented order, `t2` has the others: `redirect_links`, inserted nodes, mutations,
updates, `redirect_all_links`, removals.  The lists of mutations, updates and removals may be cut anywhere. -/
inductive Cut (t : Trans) : Trans → Trans → Prop
  | redirected : Cut t { Trans.new t.ctxId with redir := t.redir } { t with redir := [] }
  | inserted : Cut t { Trans.new t.ctxId with redir := t.redir, inc := t.inc } { t with redir := [], inc := Arena.new }
  | mutated (l1 l2 : List (NodeIndex × Closure)) : t.muts = l1 ++ l2 →
      Cut t { Trans.new t.ctxId with redir := t.redir, inc := t.inc, muts := l1 } { t with redir := [], inc := Arena.new, muts := l2 }
  | updated (l1 l2 : List (NodeIndex × Closure)) : t.upds = l1 ++ l2 →
      Cut t { Trans.new t.ctxId with redir := t.redir, inc := t.inc, muts := t.muts, upds := l1 }
        { Trans.new t.ctxId with upds := l2, redirAll := t.redirAll, dec := t.dec }
  | removed (s1 s2 : OrderSet NodeIndex) : t.dec.elems = s1.elems ++ s2.elems →
      Cut t { Trans.new t.ctxId with redir := t.redir, inc := t.inc, muts := t.muts, upds := t.upds, redirAll := t.redirAll, dec := s1 }
        { Trans.new t.ctxId with dec := s2 }

end Spec
end TTGraph
