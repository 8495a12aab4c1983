import json
r={"mods":["Verif.NN.PropsMix"],"props":[["C97","A batch counts only through the shares of its samples",
"Training on a sequence of batches gives the same weights as training on another sequence in which each batch contains every (sample, label) pair in the same proportion: the order and the number of repetitions do not matter, and writing every batch k times over changes nothing. computecost too depends only on the shares of the (prediction, label) pairs.",
"all dense networks with an output that treats rows separately (the four predefined outputs), all sequences of batches, all pairs of batches with equal shares, all repetition counts",
"all batches, repetition patterns and training histories are quantified over; a test compares one batch with one copy.",
["src/nnet/neuralnet.cpp: forwardprop, backprop, update, computecost","src/layer/outputlayer.cpp: backprop","src/layer/layer.cpp: backprop, update"]]],
"notes":{"C97":["proved","C97_training, C97_duplicates, C97_cost; exact real arithmetic. C97_repeated: a batch written k times has the same shares."]},
"design":"(C97) by C56 the gradient of a batch is the average of a function of its (sample, label) pairs; grouping equal pairs turns it into a sum weighted by their shares; induction over the batches."}
json.dump(r,open('/tmp/gen/r97.json','w'))
