import Verif.Props.Hash
import Verif.Props.Stack
import Verif.Props.HashTable
import Verif.Props.PriorityQueue
import Verif.Props.Stamp
import Verif.Props.Truth
import Verif.Props.Binary64
import Verif.Props.Usage
import Verif.Props.OccurrenceTimeIndex
import Verif.Props.Term
import Verif.Props.Narsese
import Verif.Props.Table
import Verif.Props.InvertedAtomIndex
import Verif.Props.Deduction
import Verif.Props.Inference
import Verif.Props.Variable
import Verif.Props.Normalize
import Verif.Props.Introduce
import Verif.Props.Parser
import Verif.Props.Sentence
import Verif.Props.Memory
import Verif.Model.RuleTable
import Verif.Model.NAL
import Verif.Model.Decision
import Verif.Model.Cycle
import Verif.Model.NAR
import Verif.Props.System
import Verif.Props.SystemExamples
import Verif.Props.RuleTable
import Verif.Props.Question
import Verif.Props.QuestionExamples
import Verif.Props.Decision
import Verif.Props.DecisionExamples
import Verif.Props.Settings
import Verif.Props.SettingsExamples
import Verif.Props.Reset
import Verif.Props.Session
import Verif.Props.SessionExamples
import Verif.Props.UDPNAR
import Verif.Props.UDPNARLive
import Verif.Props.UDPNARExamples
import Verif.Spec.Derived
import Verif.Props.Derived
import Verif.Props.Derivations
import Verif.Props.InferenceRun
import Verif.Props.InferenceExamples
import Verif.Spec.Links
import Verif.Proofs.Links
import Verif.Props.Links
import Verif.Props.LinksExamples
import Verif.Spec.Abort
import Verif.Proofs.Ends
import Verif.Proofs.EndsMemory
import Verif.Proofs.EndsNAL
import Verif.Proofs.EndsDecision
import Verif.Proofs.EndsCycle
import Verif.Proofs.EndsInfer
import Verif.Proofs.EndsHooks
import Verif.Proofs.EndsNAR
import Verif.Proofs.EndsAPI
import Verif.Props.Abort
import Verif.Props.AbortExamples
import Verif.Props.Lifted
import Verif.Props.LiftedExamples
import Verif.Spec.Told
import Verif.Proofs.Told
import Verif.Props.Told
import Verif.Props.ToldExamples
import Verif.Proofs.Calm
import Verif.Spec.Idle
import Verif.Proofs.Idle
import Verif.Props.Idle
import Verif.Props.IdleExamples
import Verif.Spec.Rules
import Verif.Proofs.Rules
import Verif.Props.Rules
import Verif.Props.RulesExamples
import Verif.Spec.Subgoals
import Verif.Proofs.Aims
import Verif.Proofs.Subgoals
import Verif.Props.Subgoals
import Verif.Props.SubgoalsExamples
import Verif.Spec.Related
import Verif.Proofs.Related
import Verif.Proofs.Maps
import Verif.Proofs.Chains
import Verif.Proofs.Approx
import Verif.Props.Related
import Verif.Props.Sequences
import Verif.Props.RelatedExamples
import Verif.Spec.Learning
import Verif.Proofs.Scenes
import Verif.Proofs.Learning
import Verif.Proofs.Noting
import Verif.Proofs.Settled
import Verif.Props.Learning
import Verif.Props.LearningExamples
import Verif.Spec.Anticipation
import Verif.Props.Anticipation
import Verif.Props.NoStronger
import Verif.Props.AnticipationExamples
import Verif.Props.Considered
import Verif.Props.ConsideredExamples
import Verif.Spec.Forgetting
import Verif.Proofs.Rest
import Verif.Props.Forgetting
import Verif.Props.ForgettingExamples
import Verif.Spec.Compared
import Verif.Props.Compared
import Verif.Props.ComparedExamples
import Verif.Spec.Equivalence
import Verif.Props.Equivalence
import Verif.Props.EquivalenceExamples
import Verif.Spec.Asking
import Verif.Props.Asking
import Verif.Props.AskingExamples
import Verif.Spec.Execution
import Verif.Props.Execution
import Verif.Props.ExecutionExamples
import Verif.Model.Reports
import Verif.Proofs.Reports
import Verif.Spec.Reports
import Verif.Proofs.Reported
import Verif.Props.Reports
import Verif.Props.ReportsExamples
import Verif.Model.Announce
import Verif.Spec.Announce
import Verif.Proofs.Announce
import Verif.Proofs.Announced
import Verif.Props.Announce
import Verif.Props.AnnounceExamples
import Verif.Spec.Past
import Verif.Proofs.Past
import Verif.Props.Past
import Verif.Props.PastExamples
import Verif.Spec.Admission
import Verif.Proofs.Admission
import Verif.Props.Admission
import Verif.Props.AdmissionExamples
import Verif.Spec.Waiting
import Verif.Proofs.Waiting
import Verif.Proofs.Effects
import Verif.Props.Waiting
import Verif.Props.WaitingExamples
import Verif.Props.ReceivedExamples
