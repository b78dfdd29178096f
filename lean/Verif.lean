import Verif.Props.SrrBlocks
import Verif.Props.Reader
import Verif.Props.Written
import Verif.Props.Paths
import Verif.Props.Edit
import Verif.Props.Merge
import Verif.Props.Faults
import Verif.Props.Extract
import Verif.Props.Ebml
import Verif.Props.SrsData
import Verif.Props.Crc
import Verif.Props.StreamSrs
import Verif.Props.Volumes
import Verif.Props.FirstRars
import Verif.Props.Sfv
import Verif.Props.Unicode
import Verif.Props.Compression
import Verif.Props.Yenc
import Verif.Props.Streams
import Verif.Props.Glob
import Verif.Props.Recovery
import Verif.Props.Repack
import Verif.Props.ReconstructExample
import Verif.Props.InfoSizes
import Verif.Props.Independent
import Verif.Props.Overwrite
import Verif.Props.InfoContents
import Verif.Props.Flac
import Verif.Props.Mp3More
import Verif.Props.SrsFiles
import Verif.Props.Riff
import Verif.Props.AviFind
import Verif.Props.MovCutExample
import Verif.Props.MkvCreate
import Verif.Props.MkvCut
import Verif.Props.MkvCutExample
import Verif.Props.MkvEnds
import Verif.Props.MkvExample
import Verif.Props.WmvEnds
import Verif.Props.WmvExample
import Verif.Props.WmvCut
import Verif.Props.WmvCutExample
import Verif.Props.Inputs
import Verif.Props.InputNames
import Verif.Props.CreateFrom
import Verif.Props.CreateFromExample
import Verif.Props.CreateFiles
import Verif.Props.SrrVerify
import Verif.Props.SrrCommand
import Verif.Props.SrsChecked
import Verif.Props.SrsMain
import Verif.Model.MkvRetry
import Verif.Spec.MkvRetry
import Verif.Lemmas.MkvRetry
import Verif.Props.MkvRetry
import Verif.Model.Release
import Verif.Spec.Release
import Verif.Lemmas.Release
import Verif.Props.Release
import Verif.Model.AutoSfvs
import Verif.Spec.AutoSfvs
import Verif.Lemmas.AutoSfvs
import Verif.Props.AutoSfvs
import Verif.Model.AutoStore
import Verif.Spec.AutoStore
import Verif.Lemmas.AutoStore
import Verif.Props.AutoStore
import Verif.Props.SrsCommands
import Verif.Model.AutoSrr
import Verif.Spec.AutoSrr
import Verif.Lemmas.AutoSrr
import Verif.Props.AutoContents
import Verif.Props.AutoSrr
import Verif.Lemmas.CrcOrder
import Verif.Lemmas.CrcTables
import Verif.Spec.Damage
import Verif.Props.Damage
import Verif.Model.Bitflip
import Verif.Spec.Bitflip
import Verif.Lemmas.Bitflip
import Verif.Props.Bitflip
import Verif.Model.SrsExit
import Verif.Spec.SrsExit
import Verif.Lemmas.SrsExit
import Verif.Props.SrsExit
import Verif.Model.Retag
import Verif.Spec.Retag
import Verif.Props.Retag
import Verif.Model.RarSearch
import Verif.Spec.RarSearch
import Verif.Props.RarSearch
import Verif.Model.RarSets
import Verif.Props.RarSets
import Verif.Model.ImageSize
import Verif.Spec.ImageSize
import Verif.Props.ImageSize
import Verif.Model.AutoFind
import Verif.Spec.AutoFind
import Verif.Lemmas.AutoFind
import Verif.Lemmas.AutoFind2
import Verif.Props.AutoFind
import Verif.Model.Subs
import Verif.Spec.Subs
import Verif.Props.Subs
import Verif.Model.SrrMain
import Verif.Props.SrrMain
import Verif.Model.SrrSort
import Verif.Spec.SrrSort
import Verif.Props.SrrSort
import Verif.Model.RarRepo
import Verif.Spec.RarRepo
import Verif.Props.RarRepo
import Verif.Model.AutoCopy
import Verif.Spec.AutoCopy
import Verif.Props.AutoCopy
import Verif.Model.CreateFh
import Verif.Spec.CreateFh
import Verif.Props.CreateFh
import Verif.Model.Nntp
import Verif.Spec.Nntp
import Verif.Lemmas.Nntp
import Verif.Props.Nntp
import Verif.Model.NzbFiles
import Verif.Spec.NzbFiles
import Verif.Props.NzbFiles
import Verif.Model.SrsBatch
import Verif.Spec.SrsBatch
import Verif.Props.SrsBatch
import Verif.Model.SrrTools
import Verif.Spec.SrrTools
import Verif.Props.SrrTools
import Verif.Model.RarMovie
import Verif.Props.RarMovie
import Verif.Spec.Fpcalc
import Verif.Model.Fpcalc
import Verif.Props.Fpcalc
import Verif.Spec.SrsTools
import Verif.Model.SrsTools
import Verif.Props.SrsTools
import Verif.Model.SecondMethod
import Verif.Props.SecondMethod
import Verif.Model.Compressed
import Verif.Spec.Compressed
import Verif.Props.Compressed
import Verif.Spec.Reports
import Verif.Props.Reports
import Verif.Spec.OneVolume
import Verif.Props.OneVolume
import Verif.Props.OneVolumeExample
import Verif.Spec.Unchanged
import Verif.Props.Unchanged
import Verif.Props.UnchangedExample
import Verif.Spec.History
import Verif.Props.History
import Verif.Props.HistoryExample
import Verif.Props.EditedCreated
import Verif.Props.EditedCreatedExample
import Verif.Spec.MadeSrr
import Verif.Props.MadeSrr
import Verif.Props.MadeSrrExample
import Verif.Props.HistoryHash
import Verif.Props.HistoryHashExample
import Verif.Props.NzbTools
import Verif.Props.NzbMerge
import Verif.Props.NzbToolsExample
import Verif.Props.DamagedVolumes
import Verif.Model.ArchiveDate
import Verif.Spec.ArchiveDate
import Verif.Props.ArchiveDate
import Verif.Props.ArchiveTimes
import Verif.Model.SortSets
import Verif.Spec.SortSets
import Verif.Props.SortSets
import Verif.Spec.InfoAnySize
import Verif.Props.InfoAnySize
import Verif.Model.MixedSet
import Verif.Props.MixedSet
import Verif.Spec.SalvagedSrr
import Verif.Props.SalvagedSrr
import Verif.Props.VolumeOverflow
import Verif.Props.MkvPositions
import Verif.Props.PlacesTold
import Verif.Model.SeveralPacked
import Verif.Spec.SeveralPacked
import Verif.Props.SeveralPacked
import Verif.Spec.Questions
import Verif.Model.Questions
import Verif.Props.Questions
import Verif.Model.SharedList
import Verif.Props.SharedList
import Verif.Model.AddQuiet
import Verif.Props.AddQuiet
import Verif.Spec.Unrar
import Verif.Model.Unrar
import Verif.Props.Unrar
import Verif.Spec.MovCompact
import Verif.Props.MovCompact
import Verif.Props.MovCreate
import Verif.Props.StreamCreate
import Verif.Props.FlacCreate
