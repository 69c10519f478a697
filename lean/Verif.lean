import Verif.Model.Activated
import Verif.Model.Arch
import Verif.Model.Axes
import Verif.Model.Batch
import Verif.Model.Benchmark
import Verif.Model.Branch
import Verif.Model.Broadcast
import Verif.Model.Builder
import Verif.Model.Checkpoint
import Verif.Model.Cli
import Verif.Model.Compare
import Verif.Model.ComputeGraph
import Verif.Model.ConstFold
import Verif.Model.Conv
import Verif.Model.ConvBN
import Verif.Model.DTypes
import Verif.Model.Decoder
import Verif.Model.Defaults
import Verif.Model.Diagnostics
import Verif.Model.Draw
import Verif.Model.Dump
import Verif.Model.Edit
import Verif.Model.Einsum
import Verif.Model.Export
import Verif.Model.FileTools
import Verif.Model.FixedShapes
import Verif.Model.Generate
import Verif.Model.Graph
import Verif.Model.GraphQuant
import Verif.Model.Grow
import Verif.Model.Infer
import Verif.Model.InferKv
import Verif.Model.InferState
import Verif.Model.Kernels
import Verif.Model.KernelsConv
import Verif.Model.KernelsCut
import Verif.Model.KernelsElem
import Verif.Model.KernelsNorm
import Verif.Model.KernelsResize
import Verif.Model.KernelsTopK
import Verif.Model.KvPlan
import Verif.Model.Links
import Verif.Model.LlmCli
import Verif.Model.LlmCost
import Verif.Model.LlmInit
import Verif.Model.LlmProfile
import Verif.Model.Load
import Verif.Model.Macs
import Verif.Model.MacsOps
import Verif.Model.Memory
import Verif.Model.NodeAttr
import Verif.Model.NodeMemory
import Verif.Model.NodeState
import Verif.Model.Overlap
import Verif.Model.Pattern
import Verif.Model.PatternMake
import Verif.Model.Pipeline
import Verif.Model.Pool
import Verif.Model.PoolState
import Verif.Model.PrCurve
import Verif.Model.Predict
import Verif.Model.Preload
import Verif.Model.Profile
import Verif.Model.Py
import Verif.Model.Quant
import Verif.Model.QuantOps
import Verif.Model.RangePool
import Verif.Model.Registry
import Verif.Model.Regress
import Verif.Model.Remove
import Verif.Model.Report
import Verif.Model.Resample
import Verif.Model.ResultViews
import Verif.Model.Sdpa
import Verif.Model.Serial
import Verif.Model.ShapeCalc
import Verif.Model.ShapeEngine
import Verif.Model.ShapeInfer
import Verif.Model.Skip
import Verif.Model.Slice
import Verif.Model.Sparsity
import Verif.Model.SrApp
import Verif.Model.SrBatch
import Verif.Model.SrEngine
import Verif.Model.SrProfile
import Verif.Model.SrStatus
import Verif.Model.Subgraph
import Verif.Model.Tensor
import Verif.Model.TensorProto
import Verif.Model.Tools
import Verif.Model.TopK
import Verif.Model.Topsort
import Verif.Model.Torch
import Verif.Model.ValueConv
import Verif.Model.ValueMath
import Verif.Model.ValueMove
import Verif.Model.ValueReduce
import Verif.Model.Vision
import Verif.Model.VisionTable
import Verif.Model.Yolo
import Verif.Model.YoloEval
import Verif.Model.YoloMetrics
import Verif.Proofs.Activated
import Verif.Proofs.Axes
import Verif.Proofs.AxisOps
import Verif.Proofs.Batch
import Verif.Proofs.BatchCost
import Verif.Proofs.Branch
import Verif.Proofs.Broadcast
import Verif.Proofs.Builder
import Verif.Proofs.BuilderCount
import Verif.Proofs.BuilderNames
import Verif.Proofs.BuilderSem
import Verif.Proofs.BuilderState
import Verif.Proofs.Checkpoint
import Verif.Proofs.ComputeGraph
import Verif.Proofs.ConstFold
import Verif.Proofs.Conv
import Verif.Proofs.ConvBN
import Verif.Proofs.DTypes
import Verif.Proofs.Dangling
import Verif.Proofs.Dict
import Verif.Proofs.Edit
import Verif.Proofs.EmitGraph
import Verif.Proofs.Engine
import Verif.Proofs.Export
import Verif.Proofs.Fuse
import Verif.Proofs.GraphQuant
import Verif.Proofs.Grow
import Verif.Proofs.HybridCost
import Verif.Proofs.InferKv
import Verif.Proofs.InferState
import Verif.Proofs.Kahn
import Verif.Proofs.Kernels
import Verif.Proofs.KernelsConv
import Verif.Proofs.KernelsCut
import Verif.Proofs.KernelsElem
import Verif.Proofs.KernelsNorm
import Verif.Proofs.KernelsResize
import Verif.Proofs.KvPlan
import Verif.Proofs.LlmCost
import Verif.Proofs.LlmCostState
import Verif.Proofs.LlmInit
import Verif.Proofs.Load
import Verif.Proofs.MemAlloc
import Verif.Proofs.MemBlocks
import Verif.Proofs.MemInv
import Verif.Proofs.MemRun
import Verif.Proofs.Overlap
import Verif.Proofs.Pattern
import Verif.Proofs.PatternMake
import Verif.Proofs.PrCurve
import Verif.Proofs.RangePool
import Verif.Proofs.Regress
import Verif.Proofs.Relations
import Verif.Proofs.Remove
import Verif.Proofs.Report
import Verif.Proofs.Serial
import Verif.Proofs.ShapeCalc
import Verif.Proofs.ShapeInfer
import Verif.Proofs.Skip
import Verif.Proofs.Slice
import Verif.Proofs.Sparsity
import Verif.Proofs.SrApp
import Verif.Proofs.SrBatch
import Verif.Proofs.Subnodes
import Verif.Proofs.TopK
import Verif.Proofs.Torch
import Verif.Proofs.ValueConv
import Verif.Proofs.ValueMath
import Verif.Proofs.ValueMove
import Verif.Proofs.ValueReduce
import Verif.Proofs.ValueSlice
import Verif.Proofs.Vision
import Verif.Proofs.VisionSem
import Verif.Proofs.Volume
import Verif.Proofs.Weights
import Verif.Proofs.Yolo
import Verif.Proofs.YoloMetrics
import Verif.Props.Activated
import Verif.Props.Agree
import Verif.Props.Arch
import Verif.Props.AxisOps
import Verif.Props.Batch
import Verif.Props.BatchMore
import Verif.Props.BatchNet
import Verif.Props.BatchOps
import Verif.Props.Benchmark
import Verif.Props.Branch
import Verif.Props.Broadcast
import Verif.Props.Builder
import Verif.Props.BuilderSem
import Verif.Props.Checkpoint
import Verif.Props.Cli
import Verif.Props.Compare
import Verif.Props.CompareRun
import Verif.Props.ConstFold
import Verif.Props.Conv
import Verif.Props.ConvBN
import Verif.Props.DTypes
import Verif.Props.Decoder
import Verif.Props.Defaults
import Verif.Props.Diagnostics
import Verif.Props.Draw
import Verif.Props.Dump
import Verif.Props.Edit
import Verif.Props.Einsum
import Verif.Props.Engine
import Verif.Props.Export
import Verif.Props.FileTools
import Verif.Props.FixedShapes
import Verif.Props.Gemm
import Verif.Props.Generate
import Verif.Props.GraphQuant
import Verif.Props.Grow
import Verif.Props.HybridCost
import Verif.Props.Infer
import Verif.Props.InferKv
import Verif.Props.InferState
import Verif.Props.Kernels
import Verif.Props.KernelsConv
import Verif.Props.KernelsCut
import Verif.Props.KernelsElem
import Verif.Props.KernelsNorm
import Verif.Props.KernelsResize
import Verif.Props.KernelsTopK
import Verif.Props.KvPlan
import Verif.Props.Links
import Verif.Props.LlmCli
import Verif.Props.LlmCost
import Verif.Props.LlmInit
import Verif.Props.LlmProfile
import Verif.Props.Load
import Verif.Props.Macs
import Verif.Props.MacsOps
import Verif.Props.Memory
import Verif.Props.NodeAttr
import Verif.Props.NodeMemory
import Verif.Props.NodeState
import Verif.Props.Overlap
import Verif.Props.Pack
import Verif.Props.Pattern
import Verif.Props.PatternMake
import Verif.Props.Pipeline
import Verif.Props.Pool
import Verif.Props.PoolState
import Verif.Props.PrCurve
import Verif.Props.Preload
import Verif.Props.Profile
import Verif.Props.Quant
import Verif.Props.QuantOps
import Verif.Props.Raises
import Verif.Props.RangePool
import Verif.Props.Registry
import Verif.Props.Regress
import Verif.Props.Remove
import Verif.Props.Report
import Verif.Props.Resample
import Verif.Props.Reshape
import Verif.Props.ResultViews
import Verif.Props.Sdpa
import Verif.Props.Serial
import Verif.Props.ShapeCalc
import Verif.Props.ShapeInfer
import Verif.Props.Skip
import Verif.Props.Slice
import Verif.Props.Sparsity
import Verif.Props.Split
import Verif.Props.SrApp
import Verif.Props.SrBatch
import Verif.Props.SrEngine
import Verif.Props.SrProfile
import Verif.Props.SrStatus
import Verif.Props.Subgraph
import Verif.Props.Tensor
import Verif.Props.TensorProto
import Verif.Props.Tools
import Verif.Props.TopK
import Verif.Props.Topsort
import Verif.Props.ValueConv
import Verif.Props.ValueMath
import Verif.Props.ValueMove
import Verif.Props.ValueReduce
import Verif.Props.Vision
import Verif.Props.VisionTable
import Verif.Props.Yolo
import Verif.Props.YoloEval
import Verif.Props.YoloMetrics
import Verif.Spec.Activated
import Verif.Spec.Axes
import Verif.Spec.Batch
import Verif.Spec.Branch
import Verif.Spec.Broadcast
import Verif.Spec.Builder
import Verif.Spec.BuilderSem
import Verif.Spec.Checkpoint
import Verif.Spec.Cli
import Verif.Spec.ConstFold
import Verif.Spec.Conv
import Verif.Spec.ConvBN
import Verif.Spec.DTypes
import Verif.Spec.Decoder
import Verif.Spec.Defaults
import Verif.Spec.Diagnostics
import Verif.Spec.Draw
import Verif.Spec.Edit
import Verif.Spec.FixedShapes
import Verif.Spec.Generate
import Verif.Spec.Graph
import Verif.Spec.GraphQuant
import Verif.Spec.Grow
import Verif.Spec.HybridCost
import Verif.Spec.Infer
import Verif.Spec.InferKv
import Verif.Spec.InferState
import Verif.Spec.Kernels
import Verif.Spec.KernelsConv
import Verif.Spec.KernelsCut
import Verif.Spec.KernelsElem
import Verif.Spec.KernelsNorm
import Verif.Spec.KernelsResize
import Verif.Spec.KernelsTopK
import Verif.Spec.Links
import Verif.Spec.LlmCost
import Verif.Spec.LlmInit
import Verif.Spec.LlmProfile
import Verif.Spec.Load
import Verif.Spec.Macs
import Verif.Spec.MacsOps
import Verif.Spec.Memory
import Verif.Spec.Overlap
import Verif.Spec.Pattern
import Verif.Spec.PatternMake
import Verif.Spec.Pipeline
import Verif.Spec.PoolState
import Verif.Spec.PrCurve
import Verif.Spec.Predict
import Verif.Spec.Preload
import Verif.Spec.Raises
import Verif.Spec.RangePool
import Verif.Spec.Regress
import Verif.Spec.Report
import Verif.Spec.Resample
import Verif.Spec.ResultViews
import Verif.Spec.Sdpa
import Verif.Spec.Serial
import Verif.Spec.ShapeCalc
import Verif.Spec.ShapeInfer
import Verif.Spec.Slice
import Verif.Spec.Sparsity
import Verif.Spec.SrApp
import Verif.Spec.SrBatch
import Verif.Spec.SrEngine
import Verif.Spec.Subgraph
import Verif.Spec.Tools
import Verif.Spec.TopK
import Verif.Spec.Topsort
import Verif.Spec.ValueConv
import Verif.Spec.ValueMath
import Verif.Spec.ValueReduce
import Verif.Spec.Values
import Verif.Spec.Vision
import Verif.Spec.VisionTable
import Verif.Spec.Yolo
import Verif.Spec.YoloMetrics
