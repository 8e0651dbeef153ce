import Verif.Astro.BeamCor
import Verif.Astro.Covariance
import Verif.Astro.Cross
import Verif.Astro.Db
import Verif.Astro.Drift
import Verif.Astro.Gsm
import Verif.Astro.Horizon
import Verif.Astro.Interp
import Verif.Astro.Jones
import Verif.Astro.LocalMap
import Verif.Astro.PointSource
import Verif.Astro.Pointing
import Verif.Astro.PropsBeamCor
import Verif.Astro.PropsCovariance
import Verif.Astro.PropsCross
import Verif.Astro.PropsCrossTwice
import Verif.Astro.PropsDb
import Verif.Astro.PropsDrift
import Verif.Astro.PropsGsm
import Verif.Astro.PropsHorizon
import Verif.Astro.PropsInterp
import Verif.Astro.PropsJones
import Verif.Astro.PropsLocalMap
import Verif.Astro.PropsMueller
import Verif.Astro.PropsNorth
import Verif.Astro.PropsPointSource
import Verif.Astro.PropsPointing
import Verif.Astro.PropsSession
import Verif.Astro.PropsSky
import Verif.Astro.PropsSkyImage
import Verif.Astro.PropsSkyPlot
import Verif.Astro.PropsUv
import Verif.Astro.PropsUvPlot
import Verif.Astro.PropsUvProfile
import Verif.Astro.PropsUvReturn
import Verif.Astro.PropsUvwRun
import Verif.Astro.Session
import Verif.Astro.Sky
import Verif.Astro.SkyImage
import Verif.Astro.SkyPlot
import Verif.Astro.Uv
import Verif.Astro.UvPlot
import Verif.Astro.UvProfile
import Verif.Astro.UvReturn
import Verif.Astro.UvwRun
import Verif.Blocks.Model
import Verif.Blocks.Props
import Verif.Bst.Model
import Verif.Bst.Props
import Verif.Bst.PropsSstGet
import Verif.Bst.SstGet
import Verif.Cal.Crossings
import Verif.Cal.DrawEvent
import Verif.Cal.Model
import Verif.Cal.Props
import Verif.Cal.PropsCrossings
import Verif.Cal.PropsDrawEvent
import Verif.Cal.PropsFiles
import Verif.Cal.PropsSheets
import Verif.Cal.PropsSummary
import Verif.Cal.Sheets
import Verif.Cal.Summary
import Verif.Cnst.Cache
import Verif.Cnst.Eval
import Verif.Cnst.Lemmas
import Verif.Cnst.LemmasEval
import Verif.Cnst.Model
import Verif.Cnst.Position
import Verif.Cnst.Props
import Verif.Cnst.PropsAzimuth
import Verif.Cnst.PropsCache
import Verif.Cnst.PropsPosition
import Verif.Cnst.PropsRelax
import Verif.Cnst.PropsScore
import Verif.Cnst.PropsShow
import Verif.Cnst.PropsSidereal
import Verif.Cnst.PropsWindows
import Verif.Cnst.PropsZone
import Verif.Cnst.Relax
import Verif.Cnst.Show
import Verif.Cnst.Sidereal
import Verif.Cnst.Windows
import Verif.Cnst.Zone
import Verif.Common.Prelude
import Verif.Config.FromParset
import Verif.Config.Model
import Verif.Config.Props
import Verif.Config.PropsFromParset
import Verif.Config.PropsGlued
import Verif.Config.PropsText
import Verif.Config.PropsVolume
import Verif.Config.PropsVolumePlot
import Verif.Config.VolumePlot
import Verif.Contam.Lemmas
import Verif.Contam.Model
import Verif.Contam.Props
import Verif.Contam.PropsFits
import Verif.Contam.PropsSources
import Verif.Contam.Sources
import Verif.Dyn.BandCorr
import Verif.Dyn.Clean
import Verif.Dyn.File
import Verif.Dyn.Model
import Verif.Dyn.Props
import Verif.Dyn.PropsBandCorr
import Verif.Dyn.PropsClean
import Verif.Dyn.PropsCorr
import Verif.Dyn.PropsFile
import Verif.Dyn.PropsFiles
import Verif.Dyn.PropsRange
import Verif.Dyn.PropsSelect
import Verif.GA.History
import Verif.GA.Model
import Verif.GA.Parents
import Verif.GA.Props
import Verif.GA.PropsAgain
import Verif.GA.PropsHistory
import Verif.GA.PropsParents
import Verif.Geom.Beam
import Verif.Geom.Horizon
import Verif.Geom.Lambert
import Verif.Geom.Model
import Verif.Geom.Props
import Verif.Geom.PropsAltaz
import Verif.Geom.PropsBeam
import Verif.Geom.PropsHorizon
import Verif.Geom.PropsLambert
import Verif.Geom.PropsRephase
import Verif.Geom.PropsSite
import Verif.Geom.Rephase
import Verif.Geom.Site
import Verif.IO.BeamSelect
import Verif.IO.Corr
import Verif.IO.Draw
import Verif.IO.Imaging
import Verif.IO.Names
import Verif.IO.PropsBeamOff
import Verif.IO.PropsBeamSelect
import Verif.IO.PropsCorr
import Verif.IO.PropsDraw
import Verif.IO.PropsImaging
import Verif.IO.PropsNames
import Verif.IO.PropsRebinMissing
import Verif.IO.PropsRefused
import Verif.IO.PropsSDataCut
import Verif.IO.PropsSliceCut
import Verif.IO.PropsSlices
import Verif.IO.PropsSmeared
import Verif.IO.PropsSmooth
import Verif.IO.PropsSst
import Verif.IO.PropsSstEq
import Verif.IO.PropsTransit
import Verif.IO.PropsTreat
import Verif.IO.PropsTvDraw
import Verif.IO.PropsTvFits
import Verif.IO.PropsTvPicture
import Verif.IO.PropsXst
import Verif.IO.PropsXstMoving
import Verif.IO.PropsXstSelect
import Verif.IO.SDataCut
import Verif.IO.SliceCut
import Verif.IO.Slices
import Verif.IO.Smooth
import Verif.IO.Sst
import Verif.IO.SstEq
import Verif.IO.Transit
import Verif.IO.Treat
import Verif.IO.TvDraw
import Verif.IO.TvFits
import Verif.IO.TvPicture
import Verif.IO.Xst
import Verif.IO.XstSelect
import Verif.Instru.Analog
import Verif.Instru.Area
import Verif.Instru.AreaCount
import Verif.Instru.CommonBeam
import Verif.Instru.Cst
import Verif.Instru.Current
import Verif.Instru.Grid
import Verif.Instru.Layout
import Verif.Instru.LemmasReference
import Verif.Instru.Model
import Verif.Instru.Nda
import Verif.Instru.Props
import Verif.Instru.PropsAnalog
import Verif.Instru.PropsArea
import Verif.Instru.PropsAreaUnion
import Verif.Instru.PropsCommonBeam
import Verif.Instru.PropsCst
import Verif.Instru.PropsCstMap
import Verif.Instru.PropsCurrent
import Verif.Instru.PropsFresh
import Verif.Instru.PropsGrid
import Verif.Instru.PropsLayout
import Verif.Instru.PropsNda
import Verif.Instru.PropsRadio
import Verif.Instru.PropsReference
import Verif.Instru.PropsSheet
import Verif.Instru.PropsSquint
import Verif.Instru.Radio
import Verif.Instru.RefSpec
import Verif.Instru.Reference
import Verif.Instru.Sheet
import Verif.Instru.Squint
import Verif.Parset.Center
import Verif.Parset.Json
import Verif.Parset.JsonOld
import Verif.Parset.LemmasRegex
import Verif.Parset.LemmasSyntax
import Verif.Parset.Load
import Verif.Parset.PropsAccepted
import Verif.Parset.PropsAngles
import Verif.Parset.PropsAntennas
import Verif.Parset.PropsCenter
import Verif.Parset.PropsJson
import Verif.Parset.PropsJsonOld
import Verif.Parset.PropsLists
import Verif.Parset.PropsLoad
import Verif.Parset.PropsOutLists
import Verif.Parset.PropsRefuse
import Verif.Parset.PropsReplay
import Verif.Parset.PropsReplayRefuse
import Verif.Parset.PropsReplaySession
import Verif.Parset.PropsReread
import Verif.Parset.PropsStored
import Verif.Parset.PropsText
import Verif.Parset.PropsUser
import Verif.Parset.PropsValidate
import Verif.Parset.PropsWords
import Verif.Parset.PropsZero
import Verif.Parset.Regex
import Verif.Parset.Replay
import Verif.Parset.Text
import Verif.Parset.User
import Verif.Parset.Validate
import Verif.Raw.Lemmas
import Verif.Raw.Model
import Verif.Raw.PropsRawFile
import Verif.Raw.PropsSpectraFile
import Verif.Raw.PropsWhole
import Verif.Raw.Spectra
import Verif.Sched.Booking
import Verif.Sched.Demo
import Verif.Sched.FineTune
import Verif.Sched.Fitness
import Verif.Sched.Lemmas
import Verif.Sched.LemmasAcc
import Verif.Sched.LemmasDelay
import Verif.Sched.LemmasExt
import Verif.Sched.LemmasGA
import Verif.Sched.Model
import Verif.Sched.Model2
import Verif.Sched.PropsBook
import Verif.Sched.PropsBookEx
import Verif.Sched.PropsBooking
import Verif.Sched.PropsDelayBlind
import Verif.Sched.PropsFilter
import Verif.Sched.PropsFineTune
import Verif.Sched.PropsFitness
import Verif.Sched.PropsFitnessAll
import Verif.Sched.PropsGeneral
import Verif.Sched.PropsLeak
import Verif.Sched.PropsMisc
import Verif.Sched.PropsOrder
import Verif.Sched.PropsRows
import Verif.Sched.PropsShift
import Verif.Sched.PropsTime
import Verif.Sched.Rows
import Verif.Sched.Spec
import Verif.TF.Bandpass
import Verif.TF.DreamBeam
import Verif.TF.Flatten
import Verif.TF.LemmasRfi
import Verif.TF.Limits
import Verif.TF.Lna
import Verif.TF.Model
import Verif.TF.Pipeline
import Verif.TF.PolAngle
import Verif.TF.PropsAfterRebin
import Verif.TF.PropsBandpass
import Verif.TF.PropsBlocks
import Verif.TF.PropsDreamBeam
import Verif.TF.PropsFlatten
import Verif.TF.PropsLimits
import Verif.TF.PropsLna
import Verif.TF.PropsPipeline
import Verif.TF.PropsPolAngle
import Verif.TF.PropsReduced
import Verif.TF.PropsReducedInfo
import Verif.TF.PropsReducedSlice
import Verif.TF.PropsRfi
import Verif.TF.PropsRun
import Verif.TF.PropsSelect
import Verif.TF.PropsShift
import Verif.TF.PropsStokes
import Verif.TF.PropsVolume
import Verif.TF.Reduced
import Verif.TF.ReducedInfo
import Verif.TF.ReducedSlice
import Verif.TF.Rfi
import Verif.TF.Run
import Verif.TF.Select
import Verif.TF.Stokes
import Verif.TF.Volume
