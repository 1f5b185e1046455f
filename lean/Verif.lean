import Verif.Model.Py
import Verif.Model.Correspondences
import Verif.Spec.Correspondences
import Verif.Proofs.Matching
import Verif.Proofs.Pipeline
import Verif.Props.Correspondences
import Verif.Model.Search
import Verif.Spec.Search
import Verif.Proofs.Search
import Verif.Props.Search
import Verif.Model.Tracking
import Verif.Model.TrackStep
import Verif.Spec.Tracking
import Verif.Proofs.Linking
import Verif.Proofs.TrackStep
import Verif.Proofs.Run
import Verif.Proofs.Back
import Verif.Proofs.Freq
import Verif.Props.Tracking
import Verif.Props.Linking
import Verif.Model.Vec
import Verif.Model.Trafo
import Verif.Model.RayTracing
import Verif.Model.Multimed
import Verif.Spec.Trafo
import Verif.Spec.Ray
import Verif.Spec.Multimed
import Verif.Proofs.Distortion
import Verif.Proofs.Ray
import Verif.Proofs.Multimed
import Verif.Proofs.Radial
import Verif.Props.Trafo
import Verif.Props.Ray
import Verif.Props.Multimed
import Verif.Props.Projection
import Verif.Model.Orientation
import Verif.Model.Orient
import Verif.Spec.Orientation
import Verif.Props.Orientation
import Verif.Props.Dumbbell
import Verif.Props.Orient
import Verif.Props.Motion
import Verif.Props.FrameData
import Verif.Props.ImgCoord
import Verif.Props.Epi
import Verif.Props.Volume
import Verif.Props.Lut
import Verif.Props.SortGrid
import Verif.Props.Segmentation
import Verif.Props.Recognition
import Verif.Props.TargetsIO
import Verif.Props.PathIO
import Verif.Props.ParamIO
import Verif.Props.ParamDict
import Verif.Props.CalibIO
import Verif.Props.ImageProc
import Verif.Spec.Gates
import Verif.Proofs.Gates
import Verif.Props.Gates
import Verif.Model.CamSearch
import Verif.Spec.CamSearch
import Verif.Props.CamSearch
import Verif.Props.BackStep
import Verif.Model.FrameIO
import Verif.Props.FrameIO
import Verif.Model.StoreRun
import Verif.Props.StoreRun
import Verif.Props.DiskRun
import Verif.Props.BackComplete
import Verif.Props.Complete
import Verif.Model.Tracker
import Verif.Props.WellSeen
import Verif.Props.UniformTrack
import Verif.Proofs.Lone
import Verif.Proofs.LoneRun
import Verif.Props.LoneTrack
import Verif.Proofs.Total
import Verif.Props.NoRaise
import Verif.Model.RunInit
import Verif.Props.RunInit
import Verif.Model.Calibrate
import Verif.Props.Calibrate
import Verif.Proofs.TotalAdd
import Verif.Props.NewPosition
import Verif.Props.NoRaiseAdd
import Verif.Spec.SpaceLinks
import Verif.Props.SpaceLinks
import Verif.Model.CalBlock
import Verif.Props.CalBlock
import Verif.Model.CalibObj
import Verif.Spec.CalibObj
import Verif.Proofs.CalibObj
import Verif.Props.CalibObj
import Verif.Model.FullCorr
import Verif.Spec.FullCorr
import Verif.Props.FullCorr
import Verif.Model.Pictures
import Verif.Spec.Pictures
import Verif.Props.Pictures
import Verif.Model.SingleCam
import Verif.Props.SingleCam
import Verif.Spec.PicturesTrack
import Verif.Props.PicturesTrack
import Verif.Props.SortgridPar
import Verif.Props.TripletCorr
import Verif.Props.RingBuf
import Verif.Props.TrNew
import Verif.Props.BoxBlur
import Verif.Props.CalibRun
import Verif.Props.Adjust
import Verif.Props.Crowd
import Verif.Props.FileNames
import Verif.Spec.Precision
import Verif.Props.Precision
import Verif.Props.Spots
import Verif.Model.FileTrack
import Verif.Proofs.OnImages
import Verif.Proofs.StoreConv
import Verif.Props.FileTrack
import Verif.Props.FileTrackEx
import Verif.Proofs.Restart
import Verif.Props.Restart
import Verif.Props.Swarm
import Verif.Props.Again
import Verif.Model.Layers
import Verif.Spec.Layers
import Verif.Props.Layers
import Verif.Spec.Glass
import Verif.Proofs.Glass
import Verif.Props.Glass
import Verif.Props.GlassEx
import Verif.Spec.Measured
import Verif.Proofs.Measured
import Verif.Proofs.Lens
import Verif.Props.Measured
import Verif.Props.MeasuredEx
import Verif.Spec.Gap
import Verif.Props.Gap
import Verif.Props.BackTotal
import Verif.Props.CalCopy
import Verif.Props.ParamObj
import Verif.Props.Records
import Verif.Spec.NoisyCorr
import Verif.Props.NoisyCorr
import Verif.Props.Cloud
import Verif.Model.Crash
import Verif.Proofs.Crash
import Verif.Proofs.CutText
import Verif.Props.Crash
import Verif.Props.MeasuredAdd
import Verif.Spec.WeakLens
import Verif.Proofs.WeakLens
import Verif.Props.WeakLens
import Verif.Props.WeakLensRig
import Verif.Model.Synthetic
import Verif.Props.Synthetic
import Verif.Spec.CloudPictures
import Verif.Props.CloudPictures
import Verif.Props.SwarmPictures
import Verif.Proofs.LastTarget
import Verif.Props.NoRaiseFour
import Verif.Props.SwarmPicturesEx
import Verif.Model.Rounded
import Verif.Spec.Rounded
import Verif.Proofs.Rounded
import Verif.Props.Rounded
import Verif.Props.RoundedRays
import Verif.Model.RoundedTrace
import Verif.Spec.RoundedTrace
import Verif.Props.RoundedTrace
import Verif.Props.RoundedOblique
import Verif.Model.RoundedAngle
import Verif.Props.RoundedAngle
import Verif.Props.RoundedTurn
import Verif.Model.MatMul
import Verif.Props.MatMul
import Verif.Model.RoundedPoint
import Verif.Props.RoundedPoint
import Verif.Model.ParamCompare
import Verif.Props.ParamCompare
import Verif.Model.BoxBlurPar
import Verif.Props.BoxBlurPar
import Verif.Model.RoundedImage
import Verif.Props.RoundedImage
import Verif.Model.Accessors
import Verif.Props.Accessors
import Verif.Model.FoundPix
import Verif.Props.FoundPix
import Verif.Model.RoundedDumbbell
import Verif.Props.RoundedDumbbell
import Verif.Props.RoundedScore
