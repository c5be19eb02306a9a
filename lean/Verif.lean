import Verif.Props.Version
import Verif.Props.TagFiles
import Verif.Props.HeadBag
import Verif.Props.OldTags
import Verif.Props.UpdateMember
import Verif.Props.Info
import Verif.Props.Instances
import Verif.Props.TagDir
import Verif.Props.Split
import Verif.Props.SplitInfo
import Verif.Props.Apply
import Verif.Props.Paths
import Verif.Props.ReadBag
import Verif.Props.Restore
import Verif.Props.RestoreInfo
import Verif.Props.RestoreSums
import Verif.Props.RestoreFetch
import Verif.Props.RoundTrip
import Verif.Props.Amend
import Verif.Props.Convert
import Verif.Props.Validate
import Verif.Props.ValidateHead
import Verif.Props.LinesNamed
import Verif.Props.PlacesNamed
import Verif.Model.IssueTuple
import Verif.Props.IssueTuple
import Verif.Props.ValidateExact
import Verif.Props.MkData
import Verif.Props.BagValidate
import Verif.Props.Refold
import Verif.Props.SplitValid
import Verif.Props.RestoreOk
import Verif.Props.RestoreValid
import Verif.Props.SplitRestored
import Verif.Props.SplitConforms
import Verif.Props.OpenBag
import Verif.Props.BagWalk
import Verif.Props.FormatBytes
import Verif.Props.SavedValid
import Verif.Props.Queries
import Verif.Props.AmendConforms
import Verif.Model.Restorer
import Verif.Spec.Restorer
import Verif.Lemmas.Restorer
import Verif.Props.Restorer
import Verif.Model.BagSize
import Verif.Spec.BagSize
import Verif.Lemmas.BagSize
import Verif.Props.BagSize
import Verif.Spec.AmendRestored
import Verif.Props.AmendRestored
import Verif.Model.Stopped
import Verif.Lemmas.Stopped
import Verif.Props.Stopped
import Verif.Model.AmendStopped
import Verif.Lemmas.AmendStopped
import Verif.Props.AmendStopped
import Verif.Model.Report
import Verif.Props.Report
import Verif.Model.Maker
import Verif.Props.Maker
import Verif.Model.RestoreStopped
import Verif.Lemmas.RestoreStopped
import Verif.Props.RestoreStopped
import Verif.Model.SplitRun
import Verif.Spec.SplitDisk
import Verif.Lemmas.SplitRun
import Verif.Lemmas.SplitDisk
import Verif.Props.SplitDisk
import Verif.Lemmas.Below
import Verif.Model.SplitCall
import Verif.Spec.SplitCall
import Verif.Props.SplitCall
import Verif.Model.RestoreCall
import Verif.Spec.RestoreCall
import Verif.Props.RestoreCall
import Verif.Model.SplitShared
import Verif.Spec.SplitShared
import Verif.Props.SplitShared
import Verif.Spec.RoundTrips
import Verif.Props.RoundTrips
import Verif.Spec.Editions
import Verif.Props.Editions
import Verif.Model.Fetching
import Verif.Spec.Fetching
import Verif.Lemmas.Fetching
import Verif.Lemmas.FetchDisk
import Verif.Lemmas.FetchRun
import Verif.Props.Fetching
import Verif.Spec.Neighbors
import Verif.Lemmas.Neighbors
import Verif.Props.Neighbors
import Verif.Spec.RestoreArchives
import Verif.Props.RestoreArchives
import Verif.Model.Naming
import Verif.Props.Naming
import Verif.Model.Handed
import Verif.Spec.Handed
import Verif.Props.Handed
import Verif.Model.Times
import Verif.Spec.Times
import Verif.Lemmas.Times
import Verif.Props.Times
import Verif.Model.MemberFetch
import Verif.Spec.MemberFetch
import Verif.Props.MemberFetch
import Verif.Spec.FetchRound
import Verif.Props.FetchRound
import Verif.Model.Faulty
import Verif.Spec.Faulty
import Verif.Lemmas.Faulty
import Verif.Props.Faulty
import Verif.Spec.OwnCache
import Verif.Lemmas.OwnCache
import Verif.Props.OwnCache
import Verif.Model.RestoreShared
import Verif.Spec.RestoreShared
import Verif.Lemmas.RestoreShared
import Verif.Lemmas.RestoreDoing
import Verif.Props.RestoreShared
import Verif.Model.SharedAll
import Verif.Spec.SharedAll
import Verif.Lemmas.SharedAll
import Verif.Lemmas.Splice
import Verif.Lemmas.SharedPlay
import Verif.Lemmas.SharedEnds
import Verif.Props.SharedAll
import Verif.Props.Cases
import Verif.Model.Sessions
import Verif.Spec.Sessions
import Verif.Lemmas.Sessions
import Verif.Props.Sessions
import Verif.Model.Live
import Verif.Spec.Live
import Verif.Lemmas.Live
import Verif.Props.Live
import Verif.Py.KernelRfl
import Verif.Model.MkPlan
import Verif.Spec.MkPlan
import Verif.Lemmas.MkPlan
import Verif.Lemmas.MkShare
import Verif.Lemmas.MkExact
import Verif.Lemmas.MkRepeat
import Verif.Lemmas.MkEnds
import Verif.Props.MkPlan
import Verif.Props.MkLimits
import Verif.Model.Encoding
import Verif.Spec.Encoding
import Verif.Lemmas.Encoding
import Verif.Props.Encoding
import Verif.Model.OnDisk
import Verif.Spec.OnDisk
import Verif.Lemmas.OnDisk
import Verif.Props.OnDisk
import Verif.Props.OnDiskBag
import Verif.Model.Replicate
import Verif.Spec.Replicate
import Verif.Lemmas.Replicate
import Verif.Props.Replicate
import Verif.Model.ReplicateText
import Verif.Spec.ReplicateText
import Verif.Lemmas.ReplicateText
import Verif.Props.ReplicateText
import Verif.Model.SaveStopped
import Verif.Spec.SaveStopped
import Verif.Lemmas.SaveStopped
import Verif.Props.SaveStopped
import Verif.Model.Links
import Verif.Spec.Links
import Verif.Lemmas.Links
import Verif.Props.Links
import Verif.Model.PlanText
import Verif.Spec.PlanText
import Verif.Lemmas.PlanText
import Verif.Props.PlanText
import Verif.Model.SplitNames
import Verif.Spec.SplitNames
import Verif.Lemmas.SplitNames
import Verif.Props.SplitNames
import Verif.Props.SplitTexts
import Verif.Props.SplitBagit
import Verif.Model.SaveTogether
import Verif.Spec.SaveTogether
import Verif.Lemmas.SaveTogether
import Verif.Props.SaveTogether
import Verif.Model.ReadWhile
import Verif.Props.ReadWhile
