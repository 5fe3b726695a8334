import Verif.A32.A32Lemmas
import Verif.A32.A32Model
import Verif.A32.A32Spec
import Verif.A32.AtanLemmas
import Verif.A32.AtanProps
import Verif.A32.ConvModel
import Verif.A32.DemodLemmas
import Verif.A32.DemodModel
import Verif.A32.DemodProps
import Verif.A32.DownLemmas
import Verif.A32.DownModel
import Verif.A32.DownProps
import Verif.A32.F16Lemmas
import Verif.A32.F16Props
import Verif.A32.MathModel
import Verif.A32.RotLemmas
import Verif.A32.RotProps
import Verif.A32.Ui16Lemmas
import Verif.A32.Ui16Props
import Verif.A32.Ui8Lemmas
import Verif.A32.Ui8Props
import Verif.A32.UtilModel
import Verif.A32.VAbsLemmas
import Verif.A32.VAbsProps
import Verif.A32.VMaxLemmas
import Verif.A32.VMaxProps
import Verif.A32.VScaleLemmas
import Verif.A32.VScaleProps
import Verif.A32.WordProps
import Verif.A32.WordSpec
import Verif.A64.A64Lemmas
import Verif.A64.A64Model
import Verif.A64.ConvModel
import Verif.A64.MathModel
import Verif.A64.Ui8Lemmas
import Verif.A64.Ui8Props
import Verif.A64.VExtreme
import Verif.A64.VMaxLemmas
import Verif.A64.VMaxProps
import Verif.A64.VMinLemmas
import Verif.A64.VScaleLemmas
import Verif.A64.VScaleProps
import Verif.A64.WordProps
import Verif.A64.WordSpec
import Verif.Angle.ArctanLemmas
import Verif.Angle.AtanFpLemmas
import Verif.Angle.AtanFpProps
import Verif.Angle.AtanFused
import Verif.Angle.FastModel
import Verif.Angle.FastProps
import Verif.Angle.Fixed32Model
import Verif.Angle.Fixed32Props
import Verif.Angle.FixedModel
import Verif.Angle.FixedProps
import Verif.Angle.LutFp
import Verif.Angle.LutProps
import Verif.Angle.Poly
import Verif.Arm.Arm32Model
import Verif.Arm.Arm32Props
import Verif.Arm.Arm32Spec
import Verif.Arm.Arm64Model
import Verif.Arm.Arm64Props
import Verif.Arm.AtanModel
import Verif.Arm.AtanProps
import Verif.Arm.DownArmModel
import Verif.Arm.DownArmProps
import Verif.Arm.Math32Model
import Verif.Arm.Math32Props
import Verif.Arm.RotArmModel
import Verif.Arm.RotArmProps
import Verif.Asm.AsmCore
import Verif.Asm.AsmLemmas
import Verif.Asm.FromI16Model
import Verif.Asm.FromI16Props
import Verif.Asm.FuzzModel
import Verif.Asm.FuzzProps
import Verif.Asm.MaxClosed
import Verif.Asm.MaxModel
import Verif.Asm.MaxNan
import Verif.Asm.MaxProps
import Verif.Asm.ScaleProps
import Verif.Asm.ToF32Lemmas
import Verif.Asm.ToF32Model
import Verif.Asm.ToF32Props
import Verif.Asm.ToI16Model
import Verif.Asm.ToI16Props
import Verif.Ax25.ClockFpLemmas
import Verif.Ax25.ClockFpModel
import Verif.Ax25.ClockFpProps
import Verif.Ax25.ClockFpStep
import Verif.Ax25.ClockLemmas
import Verif.Ax25.ClockModel
import Verif.Ax25.ClockProps
import Verif.Ax25.CrcLemmas
import Verif.Ax25.CrcModel
import Verif.Ax25.CrcPeriod
import Verif.Ax25.CrcProps
import Verif.Ax25.CrcSpec
import Verif.Ax25.EarBall
import Verif.Ax25.EarBlock
import Verif.Ax25.EarCheck
import Verif.Ax25.EarFp
import Verif.Ax25.EarModel
import Verif.Ax25.EarPrint
import Verif.Ax25.EarProps
import Verif.Ax25.EarReceive
import Verif.Ax25.EarRows
import Verif.Ax25.EarStream
import Verif.Ax25.EarTime
import Verif.Ax25.EarTone
import Verif.Ax25.FrameLemmas
import Verif.Ax25.FrameProps
import Verif.Ax25.FrameSpec
import Verif.Ax25.HdlcHistory
import Verif.Ax25.HdlcLemmas
import Verif.Ax25.HdlcModel
import Verif.Ax25.HdlcProps
import Verif.Ax25.HdlcSound
import Verif.Ax25.HdlcSpec
import Verif.Ax25.MemModel
import Verif.Ax25.MemProps
import Verif.Ax25.PrintModel
import Verif.Ax25.PrintProps
import Verif.Ax25.StretchFp
import Verif.Ax25.StretchModel
import Verif.Ax25.StretchProps
import Verif.Ax25.StringModel
import Verif.Ax25.StringProps
import Verif.Borip.AheadProps
import Verif.Borip.ChanModel
import Verif.Borip.ChanProps
import Verif.Borip.ClientModel
import Verif.Borip.ClientProps
import Verif.Borip.CloseModel
import Verif.Borip.CloseProps
import Verif.Borip.DeviceProps
import Verif.Borip.GoModel
import Verif.Borip.GoProps
import Verif.Borip.InteropModel
import Verif.Borip.InteropProps
import Verif.Borip.LineProps
import Verif.Borip.LinkProps
import Verif.Borip.LoopModel
import Verif.Borip.LoopProps
import Verif.Borip.PacketModel
import Verif.Borip.PacketProps
import Verif.Borip.RaceModel
import Verif.Borip.RaceProps
import Verif.Borip.RxModel
import Verif.Borip.RxProps
import Verif.Borip.SendModel
import Verif.Borip.SendProps
import Verif.Borip.ServerModel
import Verif.Borip.ServerProps
import Verif.Borip.SessionModel
import Verif.Borip.SessionProps
import Verif.Borip.StreamModel
import Verif.Borip.StreamProps
import Verif.Borip.TableModel
import Verif.Borip.TableProps
import Verif.Borip.WriteModel
import Verif.Borip.WriteProps
import Verif.Conv.AbsProps
import Verif.Conv.BitsProps
import Verif.Conv.ConvLemmas
import Verif.Conv.ConvModel
import Verif.Conv.ConvProps
import Verif.Conv.ConvSpec
import Verif.Conv.IeeeProps
import Verif.Conv.SliceLemmas
import Verif.Conv.SliceModel
import Verif.Conv.SliceSpec
import Verif.Conv.VecFp
import Verif.Conv.VecModel
import Verif.Conv.VecProps
import Verif.Cpu.ArchModel
import Verif.Cpu.ArchProps
import Verif.Cpu.AsmModel
import Verif.Cpu.AsmProps
import Verif.Cpu.CpuidModel
import Verif.Cpu.CpuidProps
import Verif.Cpu.NameModel
import Verif.Cpu.NameProps
import Verif.Cpu.NeonModel
import Verif.Cpu.NeonProps
import Verif.Cpu.OptionsModel
import Verif.Cpu.OptionsProps
import Verif.Cpu.PrintModel
import Verif.Cpu.PrintProps
import Verif.Demod.DemodFp
import Verif.Demod.DemodModel
import Verif.Demod.DemodProps
import Verif.Demod.PolarFp
import Verif.Dft.BucketFp
import Verif.Dft.DftSpec
import Verif.Dft.GoertzelFp
import Verif.Dft.GoertzelFused
import Verif.Dft.GoertzelModel
import Verif.Dft.GoertzelProps
import Verif.Dft.SdftFp
import Verif.Dft.SdftModel
import Verif.Dft.SdftProps
import Verif.Down.DownFp
import Verif.Down.DownModel
import Verif.Down.DownProps
import Verif.Dtmf.DialBall
import Verif.Dtmf.DialCheck
import Verif.Dtmf.DialFp
import Verif.Dtmf.DialGain
import Verif.Dtmf.DialHum
import Verif.Dtmf.DialModel
import Verif.Dtmf.DialProps
import Verif.Dtmf.DialSeq
import Verif.Dtmf.DialSum
import Verif.Dtmf.DialTone
import Verif.Dtmf.DtmfFpModel
import Verif.Dtmf.DtmfModel
import Verif.Dtmf.DtmfProps
import Verif.Dtmf.LiveCheck
import Verif.Dtmf.LiveFp
import Verif.Dtmf.LiveGain
import Verif.Dtmf.LiveHum
import Verif.Dtmf.LiveModel
import Verif.Dtmf.LiveProps
import Verif.Dtmf.LiveRowsA
import Verif.Dtmf.LiveRowsB
import Verif.Dtmf.LiveRowsC
import Verif.Dtmf.LiveTone
import Verif.Dtmf.StandardModel
import Verif.Dtmf.ToneFp
import Verif.Dtmf.ToneLemmas
import Verif.Dtmf.ToneProps
import Verif.Dtmf.ToolModel
import Verif.Dtmf.ToolProps
import Verif.Filt.BiquadModel
import Verif.Filt.BiquadProps
import Verif.Filt.ComplexFp
import Verif.Filt.DcFp
import Verif.Filt.DcProps
import Verif.Filt.DesignFp
import Verif.Filt.DesignModel
import Verif.Filt.DesignProps
import Verif.Filt.DesignRun
import Verif.Filt.DesignRun32
import Verif.Filt.FiltSpec
import Verif.Filt.FusedLemmas
import Verif.Filt.FusedModel
import Verif.Filt.GainFp
import Verif.Filt.GainLemmas
import Verif.Filt.IirFp
import Verif.Filt.IirLemmas
import Verif.Filt.IirModel
import Verif.Filt.IirProps
import Verif.Filt.RespProps
import Verif.Filt.StableProps
import Verif.Filt.StableSpec
import Verif.Fp.Bits
import Verif.Fp.Bits64
import Verif.Fp.BitsModel
import Verif.Fp.FpApprox
import Verif.Fp.FpComplex
import Verif.Fp.FpConvert
import Verif.Fp.FpDiv
import Verif.Fp.FpErr
import Verif.Fp.FpFma
import Verif.Fp.FpLemmas
import Verif.Fp.FpModel
import Verif.Fp.FpNear
import Verif.Fp.FpNearEval
import Verif.Fp.FpProduct
import Verif.Fp.FpRd
import Verif.Fp.FpSound
import Verif.Fp.FpSqrt
import Verif.Fp.FpTies
import Verif.Interp.InterpFp
import Verif.Interp.InterpFpModel
import Verif.Interp.InterpLemmas
import Verif.Interp.InterpLerp
import Verif.Interp.InterpModel
import Verif.Interp.InterpProps
import Verif.Interp.OptProps
import Verif.Link.BuildModel
import Verif.Link.BuildProps
import Verif.Link.LinkModel
import Verif.Link.LinkProps
import Verif.Mach.MachLemmas
import Verif.Mach.MachModel
import Verif.Rot.RotModel
import Verif.Rot.RotProps
import Verif.Window.FreqProps
import Verif.Window.WindowFp
import Verif.Window.WindowFpModel
import Verif.Window.WindowModel
import Verif.Window.WindowProps
import Verif.X86.AvoLemmas
import Verif.X86.AvoModel
import Verif.X86.AvoProps
import Verif.X86.C64Props
import Verif.X86.ConvModel
import Verif.X86.F16Lemmas
import Verif.X86.F16Props
import Verif.X86.FrameProps
import Verif.X86.GenModel
import Verif.X86.GenProps
import Verif.X86.GenSpec
import Verif.X86.I16Props
import Verif.X86.I32Lemmas
import Verif.X86.I64Lemmas
import Verif.X86.I8Lemmas
import Verif.X86.I8Props
import Verif.X86.MathModel
import Verif.X86.U16Lemmas
import Verif.X86.U16Props
import Verif.X86.VMLemmas
import Verif.X86.VMaxLemmas
import Verif.X86.VMaxProps
import Verif.X86.VMinLemmas
import Verif.X86.VScaleLemmas
import Verif.X86.VScaleProps
import Verif.X86.X86Ieee
import Verif.X86.X86Lanes
import Verif.X86.X86Lemmas
import Verif.X86.X86Model
import Verif.X86.X86Spec
