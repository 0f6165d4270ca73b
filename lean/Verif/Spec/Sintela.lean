import Verif.Spec.Reader
import Verif.Model.Sintela
/-! # How a Sintela file is written -/
namespace Spec
open Verif

/-- A file of `packets` (a header and rows of samples each). Every sample is written as four bytes which mean the sample. -/
structure SintelaLayout {β α} (f : SintelaFile β α) (encode : α → List β) (packets : List (List β × List (List α))) : Prop where
  bytes : f.raw = packets.flatMap fun p => p.1 ++ p.2.flatten.flatMap encode
  four : ∀ x, (encode x).length = 4
  means : ∀ x, f.decode (encode x) = x
  headers : ∀ p ∈ packets, p.1.length = f.headerSize
  samples : ∀ p ∈ packets, p.2.length = f.numSamples
  channels : ∀ p ∈ packets, ∀ row ∈ p.2, row.length = f.numChannels
  some_packets : packets ≠ []
  some_samples : 1 ≤ f.numSamples
  some_channels : 1 ≤ f.numChannels
  forward : 0 < f.sampleRate
  slow : f.sampleRate ≤ 1000000000
  apart : 0 < f.channelSpacing
  onwards : 1 ≤ f.channelStep

end Spec
