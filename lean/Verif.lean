import Verif.Containers.Props
import Verif.Timeline.Props
import Verif.AprilGrid.Props
import Verif.Solver.Props
import Verif.Num.Props
import Verif.Geom.LinearProps
import Verif.Geom.QuatProps
import Verif.Geom.RotProps
import Verif.Geom.PoseProps
import Verif.Cam.Props
import Verif.Residual.PriorProps
import Verif.Calib.CamchainProps
import Verif.Stream.ImuProps
import Verif.Stream.InterpProps
import Verif.Stream.SyncProps
import Verif.Misc.Props
import Verif.Calib.CameraWitness
import Verif.VI.Witness
import Verif.VI.InitProps
import Verif.Marg.EvalProps
import Verif.Text.Props
import Verif.Fs.Props
import Verif.Config.Props
import Verif.Imu.Props
import Verif.Imu.CovProps
import Verif.Imu.JacLemmas
import Verif.Imu.ConsProps
import Verif.AprilGrid.DetectProps
import Verif.Imu.JrProps
import Verif.Nbv.Props
import Verif.Nbt.TrajProps
import Verif.Nbt.SimProps
import Verif.Imu.TransProps
import Verif.Calib.OutlierWitness
import Verif.Calib.LoopWitness
import Verif.Text.ArrayProps
import Verif.Solver.CovWitness
import Verif.VI.QueryWitness
import Verif.Mocap.Witness
import Verif.Data.Witness
import Verif.Info.NbvWitness
import Verif.Setup.RigWitness
import Verif.Setup.InitWitness
import Verif.Setup.InspectWitness
import Verif.Info.CeresWitness
import Verif.Sim.Witness
import Verif.Sparse.Witness
import Verif.Sparse.StepWitness
import Verif.Cv.Props
import Verif.Ctraj.Motion
import Verif.Data.PreTight
import Verif.Att.Props
import Verif.Att.LieProps
import Verif.Dense.Props
import Verif.Rand.Props
import Verif.NumJac.Check
import Verif.VI.HessProps
import Verif.VI.RecoverProps
import Verif.Metrics.ViProps
import Verif.Chol.Props
import Verif.Calib.LoadProps
import Verif.Calib.LoadWitness
import Verif.VI.LoadProps
import Verif.VI.LoadWitness
import Verif.Image.CamProps
import Verif.Lm.Witness
import Verif.Ctor.Witness
import Verif.Euroc.Witness
import Verif.Gimbal.ReportProps
import Verif.Gimbal.JointProps
import Verif.Gimbal.ProblemProps
import Verif.Cv.Tight
import Verif.VI.Tight
import Verif.Image.Tight
import Verif.Fmt.Props
import Verif.Save.ViWitness
import Verif.Euroc.Tight
import Verif.Save.CamWitness
import Verif.Csv.Times
import Verif.Disk.MakeProps
import Verif.Data.MocapPreWitness
import Verif.Nbt.EvalWitness
import Verif.Setup.TightProps
import Verif.Sparse.TightProps
import Verif.Tool.InfoWitness
import Verif.Gimbal2.Witness
import Verif.Sim.TightProps
import Verif.Report.Witness
import Verif.Par.Props
import Verif.Net.Props
import Verif.Bar.Props
import Verif.Tool.EurocProps
import Verif.GridFile.Witness
import Verif.Pnp.Props
import Verif.Loss.Props
import Verif.Calib.GetWitness
import Verif.Marg.ChainWitness
import Verif.Csv.TightProps
import Verif.Gimbal.TightProps
import Verif.Save.TightProps
import Verif.Shape.Props
import Verif.Shape.MargProps
import Verif.Print.Props
import Verif.Draw.Props
import Verif.Tool.ProgProps
import Verif.Gimbal2.TightProps
import Verif.Timeline.OwnProps
import Verif.CamMem.Props
import Verif.Tight.M29
import Verif.SolverObj.Props
import Verif.Tight.M30
import Verif.Rig.Props
