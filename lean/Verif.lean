import Verif.Sparse.Props
import Verif.Accum.Props
import Verif.Counts.Props
import Verif.FitUtils.Props
import Verif.Newton.Props
import Verif.Energy.Props
import Verif.Edisp.Props
import Verif.Drm.Props
import Verif.Binned.Props
import Verif.TrapQuad.Props
import Verif.HistND.Props
import Verif.SrcModel.Props
import Verif.Roi.Props
import Verif.Summed.Props
import Verif.Comp2.Props
import Verif.Unbinned.Props
import Verif.Nobs.Props
import Verif.Spectra.Props4
import Verif.Spectra.Props5
import Verif.Spectra.Props2
import Verif.PowerLaws.Props4
import Verif.PowerLaws.Props
import Verif.Pieces.Props4
import Verif.Priors.Props
import Verif.AddMap.Props
import Verif.MapOut.Props
import Verif.Wrap.Props
import Verif.FitScan.Props
import Verif.Snap.Props
import Verif.Snap.Props3
import Verif.MeanPsf.Props2
import Verif.Comp1.Props3
import Verif.Livetime.Props
import Verif.ScData.Props2
import Verif.Radial.Props
import Verif.Profile.Props
import Verif.EM.Props
import Verif.Wcs.Props2
import Verif.MapInt.Props3
import Verif.Weights.Props
import Verif.Weights.Props2
import Verif.Weights.Props3
import Verif.Xml.Props
import Verif.Xml.Props2
import Verif.Xml.Props3
import Verif.Xml.Props4
import Verif.Xml.DigitsProps
import Verif.FluxFile.Props
import Verif.MapLib.Props
import Verif.SkyInt.Props
import Verif.SkyInt.Props2
import Verif.SkyInt.Props3
import Verif.ExpMap.Props
import Verif.ExpMap.Props2
import Verif.BinExp.Props
import Verif.BinExp.Props2
import Verif.PsfMap.Props
import Verif.PsfInt.Props
import Verif.DiffMap.Props2
import Verif.Pix.Props2
import Verif.Npred.Props2
import Verif.SrcMap.Props
import Verif.SrcMap.Props2
import Verif.Files.Props
import Verif.Files.Props2
import Verif.SrcMap.Props3
import Verif.DiffRsp.Props
import Verif.DiffRsp.Props2
import Verif.SrcProb.Props
import Verif.LtSum.Props
import Verif.LtSum.Props2
import Verif.TsVal.Props
import Verif.TsVal.Props2
import Verif.TsVal.Props3
import Verif.FitOut.Props
import Verif.FitOut.Props2
import Verif.FitOut.Props3
import Verif.TsMap.Props
import Verif.FindSrc.Props
import Verif.Cuts.Props
import Verif.CountSpec.Props
import Verif.BackFile.Props
import Verif.Attrib.Props
import Verif.EvRead.Props
import Verif.Merge.Props
import Verif.ExpCube.Props
import Verif.CntMap.Props
import Verif.GtCnts.Props
import Verif.ModMap.Props
import Verif.HpxExp.Props
import Verif.FitMerge.Props
import Verif.Shift.Props
import Verif.ScanPrior.Props
import Verif.ScanNorm.Props
import Verif.Convol.Props
import Verif.HpxMap.Props
import Verif.HpxConv.Props
import Verif.PixResp.Props
import Verif.LogFit.Props
import Verif.MatVec.Props
import Verif.TsScan.Props
import Verif.StScan.Props
import Verif.Redata.Props
import Verif.MapFile.Props
import Verif.LtCube.Props
import Verif.Ties.Props
import Verif.MapSize.Props
import Verif.Owner.Props
import Verif.TestSrc.Props
import Verif.SumScan.Props
import Verif.DmFit.Props
import Verif.WtOwn.Props
import Verif.CompMap.Props
import Verif.OneSrc.Props
import Verif.Refit.Props
import Verif.MuDist.Props
import Verif.OutFiles.Props
import Verif.WcsCopy.Props
import Verif.ScanFile.Props
import Verif.ExpApp.Props
import Verif.ScanApp.Props
import Verif.Explicit.Props
import Verif.Factory.Props
import Verif.CosBins.Props
import Verif.Readd.Props
import Verif.PsfApp.Props
import Verif.DiffHdr.Props
import Verif.FindRun.Props
import Verif.HpxIo.Props
import Verif.SrcApp.Props
import Verif.MapEdge.Props
import Verif.ScanRef.Props
import Verif.SpatConv.Props
import Verif.FileKind.Props
import Verif.PlotSpec.Props
import Verif.PhiDep.Props
import Verif.SnapOwn.Props
import Verif.RespCell.Props
import Verif.WtTool.Props
import Verif.MapOwn.Props2
import Verif.GaussPar.Props
