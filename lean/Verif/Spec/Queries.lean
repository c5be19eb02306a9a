import Verif.Spec.HeadBag
/-!
# What the queries of a head bag should report
-/

namespace Verif.Spec

/-- Calls that only ask. -/
def isQuery : Op → Bool
  | .memberBags | .lookupFile _ | .filesInMember _ | .deletedPaths => true
  | _ => false

/-- Two head bag objects answer all queries alike. -/
structure SameAnswers (s s' : HeadBag) : Prop where
  members : (s.memberBags).1 = (s'.memberBags).1
  names : (s.memberBagNames).1 = (s'.memberBagNames).1
  lookup : ∀ p, (s.lookupFile p).1 = (s'.lookupFile p).1
  files : ∀ b, (s.filesInMember b).1 = (s'.filesInMember b).1
  deleted : (s.deletedPaths).1 = (s'.deletedPaths).1

end Verif.Spec
